# Formal model of wiedymi/ass-rs — design

## 1. Approach

The code in `/repo` is read as text and modelled function by function in Lean 4
(`lean/Verif/Model/*.lean`).  A model definition is a small total function over
`List`, `Nat`, `Int`, `Option` and structures; its comment cites the Rust file
and lines.  Independent specifications live in `lean/Verif/Spec/*.lean`, helper
lemmas in `lean/Verif/Lemmas/*.lean`, and the property theorems, each with a
concrete instance next to it, in `lean/Verif/Props/*.lean`.

Conventions:

* `&mut self` methods become functions from the old state to the new state.
* A Rust panic (slice out of range, non-boundary slice, arithmetic overflow with
  debug assertions) is an explicit outcome of the model, not a default value.
* Strings are `List Char`; where byte offsets matter the UTF-8 length of each
  character is used, or the text is a list of bytes.
* Loops become structural recursion, or recursion on an explicit fuel together
  with a theorem that the fuel supplied is enough.
* `f32` geometry is modelled with exact integers or rationals; rounding is not
  modelled (recorded per property).
* External code (ropey, tiny-skia, rustybuzz, std collections) is represented by
  its documented contract.

Where the code does not satisfy the property a user would expect, the model
keeps the code's behaviour: the negation is proved with a concrete witness
(theorem name ends in `_violated`) and the part that does hold is proved under
the weakest convenient hypothesis (theorem name ends in `_partial`).

## 2. Plan per property

* **C01 Time format/parse round-trip** — Model `u32` decimal printing and `parse_ass_time` on `List Char`; prove parse (format n) = ok n by a decimal print/parse round-trip lemma plus div/mod arithmetic.
* **C02 Time parsing accepts exactly the documented grammar** — Independent grammar predicate over strings (components, ranges, value) and an iff against the modelled parser, including the u32 overflow panic outcome.
* **C03 Colour parsing is faithful** — Model hex parsing and the prefix cases; round-trip by case analysis on nibbles; negative theorem for the accepted `+`.
* **C04 Embedded font/graphic data survives encode then decode** — Model encoder and decoder on `List Nat` bytes; induction over 45-byte lines and 3-byte groups.
* **C05 Line-ending normalisation** — Model the peekable loop; spec = split at CRLF|CR|LF; induction.
* **C06 Byte order mark handling** — Model on bytes; case analysis.
* **C07 Truncation never splits a character** — Model the backwards boundary search on a char list with UTF-8 lengths; spec = longest prefix of whole characters.
* **C08 Tokenizer always makes progress** — Model next_token for the scalar and SIMD scanners; show strictly decreasing remainder and that spans are consecutive substrings.
* **C09 Section scanning is total** — Model the section loop with the progress rule; fuel sufficiency theorem (fuel = length).
* **C10 Event lines round-trip** — Model splitn and field lookup by format; round trip by induction over the format list.
* **C11 Style lines round-trip** — As C10 with the style field list.
* **C12 Undo restores the text** — Model document = text + undo stack; theorem over every history; negation witness for unequal-length replace.
* **C13 Redo restores the undone text** — Same state machine; negation witness for two undos/two redos.
* **C14 Undo history stays within its limits** — Invariant by induction over an operation list.
* **C15 Edits do exactly what they say or nothing** — Splice specification on byte lists.
* **C16 Range algebra** — Set semantics `p ∈ [start,end)`; omega.
* **C17 Line/column conversion inverts** — Line table model; round trip by induction on the text.
* **C18 Session manager invariants** — Inductive invariant over session operations.
* **C19 Event handlers: registration order, limits and identity** — Inductive invariant over registration operations; delivery order theorem.
* **C20 Extension commands always belong to loaded extensions** — Inductive invariant.
* **C21 Active subtitle selection** — Refinement of the index-based selection to the filter specification.
* **C22 Overlap detection is exact** — Sweep-line loop invariant; iff with interval intersection; negation for zero-length events.
* **C23 Style inheritance is applied** — Model the topological sort; theorem that it fails for every style list with an existing parent (so the property is violated), positive theorem for the intended part.
* **C24 Collision resolver separates subtitles** — Exact arithmetic (rational) model; loop invariant; negation with clamping.
* **C25 Texture atlas regions are disjoint and in bounds** — Shelf-packing invariant; negation for over-wide requests.
* **C26 Caches are bounded and never wrong** — Association-list model; induction over operations.
* **C27 Dirty regions cover every change** — Coverage invariant over additions.
* **C28 Frame cache is transparent** — Renderer with abstract pure draw function; equality of cached and uncached runs for fixed context; negation after a context change.
* **C29 Search finds every occurrence; replace-all replaces them** — Model the search loop on bytes; iff with occurrence; replace semantics for non-overlapping occurrences.
* **C30 Tag stripping removes every override block** — Model the find/replace loop; induction on text length.
* **C31 SRT timestamps round-trip** — Arithmetic on the time models.
* **C32 WebVTT timestamps round-trip** — Arithmetic on the time models.
* **C33 Dialogue text analysis is total and extracts visible text** — Model with explicit panic outcome; refinement to a small recursive spec when braces are closed; negation witnesses for the crashes.
* **C34 Override tags are located where they are** — Model with byte positions and explicit panic; invariant.
* **C35 Karaoke generation preserves the words** — Model; concatenation theorem for single-blank text; negation witness.
* **C36 Timing adjustment keeps events well ordered** — Integer arithmetic model of the clamps.
* **C37 Editing one field preserves the others** — Model the command’s line splitter; negation witness and positive part for comma-free text.
* **C38 Script-info set/get** — String-search model; positive part and negation witness.
* **C39 Style commands touch only the named style** — String-prefix model; positive part and negation witness.
* **C40 Streaming is independent of chunking** — Model the buffer/complete-lines split; chunk invariance for CR-free text; negation at CR.
* **C41 Atomic batches are all-or-nothing** — Model of the update functions on parsed scripts; the copy, its steps and the additions.
* **C42 Validation verdict** — Model filter/truncate/verdict; positive part and negation witness.
* **C43 Pixel blending stays in range and SIMD equals scalar** — Arithmetic on 0..255 by `decide`-free bounds (omega) and list induction for the rows.
* **C44 Line wrapping loses no text** — Model with abstract metrics; induction over break lists.
* **C45 Animation progress is a clamped monotone function of time** — Rational arithmetic model of the linear part.
* **C46 Legacy alignment conversion** — Finite table decided by the kernel; negation.
* **C47 Extension registry behaves as a map** — Map model; induction over operations.
* **C48 Complexity scores stay in range** — u8 arithmetic with overflow outcome; bounds; negation.
* **C49 Tag argument validators** — Model on char lists with UTF-8 lengths; iff with grammar.
* **C50 Timing relation is a symmetric classification** — Case analysis with omega.
* **C51 Segmenting preserves the visible text** — Model both traversals; equality where both are defined.
* **C52 Animation bookkeeping: tag splitting loses nothing** — Induction over the characters with depth counter.
* **C53 Undo after a command** — Model of the command executor on the document of C12; equation for every command that reports its change; negation witnesses.
* **C54 Session statistics match the sessions that exist** — Invariant of the session machine of C18; negation witness for the field that drifts.
* **C55 Dependencies of a loaded extension are loaded** — Invariant of the extension manager; negation witnesses.
* **C56 Commands of an active extension stay available** — Invariant over loads and unloads; negation witness with a shared command name.
* **C57 Extension lifecycle calls return** — Lock model: a second acquisition of a held lock is an explicit outcome; negation witness.
* **C58 Circular style inheritance is reported exactly when it exists** — Graph specification (a path from a style to itself); soundness and completeness of the depth-first search.
* **C59 Writing one atlas region leaves the others intact** — Byte-level frame theorem over disjoint regions; negation witness.
* **C60 Cropping a layer keeps every visible pixel** — Pixel-wise equality by arithmetic on the rectangles.
* **C61 Incremental rendering equals full rendering** — Renderer state machine with an abstract paint function; partial theorem and negation witnesses.
* **C62 Rendering does not depend on earlier scripts** — Same machine; negation witness.
* **C63 Exported subtitles import back unchanged** — Composition of the modelled writer and reader, induction over the events.
* **C64 Karaoke adjustment changes only durations** — Specification of a line as text between karaoke tags; equation; negation witnesses.
* **C65 Deleting events removes exactly their lines** — Document as lines; equation on the text.
* **C66 Merging and splitting events** — Equation on the text for adjacent lines; negation witnesses.
* **C67 Creating a style adds one style line** — Equation on the text; negation witnesses.
* **C68 Applying a style to events** — Equation on the text line by line; negation witnesses.
* **C69 Registered handlers do not change which tags are found** — Same traversal with and without handlers; equality.
* **C70 Events in a time range** — Filter specification; negation witness for empty events.
* **C71 Durations** — Arithmetic with an overflow outcome.
* **C72 Sorting events by time** — Permutation, sortedness and stability of the sort.
* **C73 The place given for a parsed event or style is its line** — Position invariant through the whole section parser.
* **C74 Line numbers of parsed things** — Count of line breaks before the position; negation witness.
* **C75 Writing a parsed script and parsing it again** — Composition of writer and parser models; negation witnesses.
* **C76 Embedded files survive being added, parsed and decoded** — Composition of the command, the parser and the decoder.
* **C77 Listing, adding, removing and clearing embedded files** — Equations on the text; negation witnesses.
* **C78 Compositing a tile changes exactly the pixels it covers** — Frame theorem on the buffer; negation witness for far offsets.
* **C79 Transforms are understood as written** — Grammar of transforms; parser equation; negation witnesses.
* **C80 A running transform interpolates from the value in force to its target** — Exact rational arithmetic; power function as parameter.
* **C81 Tags in force on a segment** — Table of tags with what they set; last-one-wins by induction over the blocks; negation witnesses.
* **C82 Lint rules report exactly the faults they are for** — Model the built-in rules over parsed sections; show for each rule, by
  induction over the events or styles, that the report lists exactly the elements with the fault, described by the time and colour
  specifications; witnesses where it does not.
* **C83 Lint configuration selects from the full report** — Show that the running loop under any configuration equals filtering and
  cutting the report of the default configuration.
* **C84 Streaming: the current section** — Model the line processor; induction over the lines with an inductive description of the
  last header; witnesses for swallowed lines.
* **C85 Wrapped lines fit** — model `wrap_segments` for any arithmetic and font; over exact rationals, an invariant of the filling loop (advance, glyphs and first word are those of the current run) gives that lines are packed; an invariant of the search gives that the limit found is below the one asked for.
* **C86 Updating a line at an offset changes exactly that line** — Model of the update functions on parsed scripts; the result as a step relation; with the order of the spans of parsed scripts, exactly the line at the offset.
* **C87 Change tracking records every change** — The same model with the tracker; what is appended for each call.
* **C88 The difference of two scripts leads from one to the other** — Replay of the changes on a list of sections, by induction.
* **C89 A delta says exactly what changed between two parses** — The delta carried out on a list of sections, compared by content.
* **C90 Parsing what changed gives what a full parse gives** — model `parse_incremental`; describe sources as header lines and clean lines; contents by the parser theorems on the whole source and on the slice of each section, places by the ordering theorem C73 and the range lemmas of C91; witnesses for the edits it misses.
* **C91 Ranges follow edits** — model range adjustment, the edited source and line counting; texts at byte ranges by sizes of prefixes, line numbers by induction over the source.
* **C92 Tokens are what they say and where they say** — an invariant relating the tokenizer's place to the text read so far (bytes, lines, columns), kept by every scanner; the shape of each type by cases on the scanner.
* **C93 Accelerated scanning agrees with plain scanning** — model the chunked scans on bytes; UTF-8 facts show that delimiter bytes are delimiter characters; a simulation between the two tokenizers.
* **C94 Encoding checks tell the truth** — model the decoder byte by byte; validity as existence of a text; recovery by a relation between bytes and text.
* **C95 Tag commands change exactly the tags they name** — model the commands on top of the block parser; relations between the text before and after, built from tags and text; induction over blocks and tags.
* **C96 Event queries return exactly the matching events in the requested order** — model filter, comparison and a stable insertion sort with panicking comparisons; the order as a transitive relation on events; sorted and complete results by induction.
* **C97 Built lines mean what was given to the builder** — model the builders; the value table agrees with the event meant; then the round trip of lines (C10, C11).
* **C98 Section deltas** — documents as a list of section texts with distinct kinds; headers contain one bracket, so every occurrence is at a section start; induction over the operations with sections annotated by their index; undo and failure by witnesses.
* **C99 Registry formats SRT and WebVTT** — model the importers, the exporters and the styling conversions with the regular expressions written out as functions; specify files as blocks of lines with gaps; prove that replacements act token by token, that the import loop takes block after block, and reuse the C75 round trip for the script text; concrete counterexamples where text is lost.
* **C100 Style analyzer** — model every field rule of `from_style`/`from_style_with_parent` over exact rationals with the number reader as a parameter; characterise success and result field by field; the analyzer through C23's theorem; conflicts and validation by membership.
* **C101 Drawings** — model the tokenizer, the command loop, the conversion of splines and the calls on the path builder, and placing and moving a drawing, over exact rationals with the number reader as a parameter; specify tokens as a relation and well formed parts as data with their commands, and prove by induction on the parts; state the disagreements (B-splines, levels, default position, incomplete commands) as negations.
* **C102 Syntax highlighting** — model the tokenizer of documents, events, tags and sections, and the cache; specify a document as pieces of text with a meaning or none, by grammar relations for lines, fields and blocks, and tokens as the pieces at their byte positions; prove that the loops produce exactly those, that ranges are slices and in order, and what the cache returns; drift after carriage returns, stale entries and the limit are disagreements.
* **C103 Auto-completion** — model the context at a cursor, the four sources of entries and the ranking; specify the cursor as a cut of the text, the section as a relation on the lines above, and the entries to be offered as an inductive relation; prove both inclusions and exactly when a request panics.
* **C104 Lines of text stand where alignment, margins and position say** — `position_segment` with both ways of finding an anchor, over exact rationals, shaping as given measures; induction over the runs of a line with the pen as invariant and over the lines with index and offset as invariant.
* **C105 Text is painted in the colours of its tags or style, as opaque as alpha and fade say** — `resolve_run_colors` and `parse_ass_color` over exact rationals; case analysis over the phases of a fade, each share shown to be the quotient the specification names.
* **C106 Text gets exactly the effects its tags and style ask for** — `push_text_effects` as a list; membership of each effect characterised both ways, kinds shown to increase along the list.
* **C107 Lines keep all text with its tags, and karaoke syllables follow one another** — `split_into_logical_lines` by induction over segments and parts with the line begun as invariant; karaoke by induction over runs with the time sung so far.
* **C108 Stacking** — model `process_events` with the collision resolver over exact rationals, the drawing of one event a parameter; invariant over the loop: every placed box is within half a pixel of where its layers ended up; hence separation and stillness follow from C24.
* **C109 Search indexes** — model both indexes (words, entries, sorted keys, subsequence matching, scopes, replacing); characterise the set of results by membership, no repetitions from increasing positions; places by relating `lines` to the text.
* **C110 Partial and regular-expression searches** — model the computation of the bounds and the loops; the region between the bounds is the lines wanted by induction over the text; matches as a parameter that finds stretches; replacing by induction over gaps and matches.
* **C111 Updating the word index** — model the update with its guesses; exactness of building from C29; after one change relate old, new and window words by splitting the texts.
* **C112 A shared document** — small-step model of threads with the command mutex and the read/write lock (with poisoning), operations as trees of small steps; schedules as lists of threads; an invariant relates every reachable state to the serial execution of the log, from which serializability, exclusion and absence of deadlock follow; termination by a well-founded sum of the threads' remaining work.
* **C113 Batches of commands** — commands as functions from texts to results and texts, the batch loop, `execute_command` and the recorded operation; order and nesting by induction with an associative join of results, undo through the history model of C12.
* **C114 Blurring softens without losing or inventing anything** — the two passes of the kernel as weighted sums over exact rationals, the kernel given by any positive symmetric weights (the values of `exp` are a parameter); locality and bounds by monotonicity of the sums, symmetry by reversing them, room by comparing both canvases with one that has no edges; the tiles and cropping boxes of blurred text and drawings as arithmetic on rationals.
* **C115 Painting text: cached shapes, karaoke and decorations** — the layer painter as a function from layer and caches to what is filled and new caches, with shaping, outlines, projection and rasteriser as parameters; an invariant says that each cached entry is what its key rasterises to; the two ways of painting are compared shape by shape with a rasteriser that remembers what it is given.
* **C116 Turning, stretching, slanting and tilting text** — the fold over the effects that builds the transform, and the projection of points, over exact rationals with cosine and sine as parameters; fixed points and distances by induction over the effects, straight lines by the determinant of the projection; the matrices, blends and easing curves of the utilities by algebra.
* **C117 Editing events and properties through the document** — the document functions that find a line by its beginning and replace it, on top of the document, parser and builder models; the place found by the first-occurrence lemma for clean sources, what is said afterwards by the content of sections line by line; refusals by cases.
* **C118 Incremental edits of a document** — model `edit_incremental` with its short way, the parser's kept text, undo data, undo and redo at section level; text proved by the splice lemmas, with the exact condition for a panic; reports by composing C89 and C90; sessions by induction; disagreements by general theorems and witnesses.
* **C119 Layout helpers put text where its tags and margins say** — model the positioning functions over exact rationals; one theorem per question (position, alignment, movement, rotation, scaling, several lines) against a specification by alignment point; cases over the nine alignments, then linear arithmetic; several lines by induction over the lines.
* **C120 Reading all tags of an event at once** — the second interpreter on top of the text analysis (C33, C34) and the segmenter's arms (C81); each plain tag is shown to be cut the same way by both scanners, then induction over tags, blocks and text; agreement follows from C81.
* **C121 Animation tracks** — tracks, state and controller as they are, with `powf` and the reader of numbers as parameters; the curves are monotone because their differences factor into sums of squares; the state by induction over the tracks; modifiers by computing the chain of names on the documented forms.
* **C122 Session memory pool** — the pool as a state machine over allocations and calls, arenas as byte counts, what a reset keeps as a parameter; invariants by induction over histories, faults by computed histories.
* **C123 Line breaks and line counts of a text** — texts are decomposed into pieces (every text has a decomposition), the scanner is shown to process piece by piece, positions by an invariant over the pieces read; line counts from the length of `lines` by induction.
* **C124 Fluent event operations reach the events they name** — the model joins the existing models of parser, query and deletion; for a script that can be written down, the round trip (C75) gives the parsed events, C96 the numbers of the matching ones and C65 the deletion of their lines, and the text left is shown to be the one of the script without them.
* **C125 Typed script properties** — the fluent script-info operations over the C38 commands, and the getters of the parsed `ScriptInfo`; single set/get from C38, agreement with the parser through the round trip (C75); remarks, names with the same ending and missing blanks as witnesses of disagreement.
* **C126 Font choice** — `find_font`/`find_font_for_text` over an abstract database; the scans by induction with a best-so-far invariant; witnesses for curated fonts, unreadable fonts and the empty text.
* **C127 Shaping and outlines** — pen positions, ink and metrics over exact numbers; the caches of shaped texts and outlines as maps with the invariant that entries are what a fresh computation gives, for every history of calls.
* **C128 GPU compositor** — bitmaps to quads, textures and uniforms, the pool, passes and read-back as functions, the graphics library by its documented effects (trusted); positions rounded by any 24-bit rounding shown to sample each bitmap's own pixel; an invariant of pool and buffers over every history; the distance to the software backend by induction over the bitmaps on top of C78.
* **C129 rasterizer** — edges, rows, deposits per column, prefix sums and bytes as functions over exact rationals; the area right of an edge in a pixel as an inductive relation (none, whole, trapezoid, sum of parts), shown unique; the sum of the deposits up to a column shown to be that area, then rows, edges, lists of edges; closed contours sum to nothing right of the bitmap; without edges in the pixel the area is the winding number by a telescoping sum along each contour.
* **C130 tiles** — segments to edges as a relation over the outline with closings; curves by the exact difference between a chord and its arc; bounds by the hull of the control points; shifts of edges and areas between frame and tile.
* **C131 edits at a place** — line starts of consecutive lines by their running lengths; the edits of a stretch of lines by induction from its last line; offsets within a multi-byte line break count as its beginning; ropey's lines are proved to be those of a grammar of breaks.
* **C132 bitmaps** — a layer is what it does to a pixmap, with the boxes it notes; the empty scratch pixmap is the invariant from layer to layer; the two renderings are compared by induction over the layers; thread-local variables are part of the state.
* **C133 unknown sections and processors** — the parser of C09 with section processors as arbitrary functions and the suggestion loop added; lock-step with the parser without them; induction over the sections of a source for what each processor gets.
* **C134 clips and drawings** — winding numbers of the mask's path at pixel centres over exact rationals (tiny-skia's fill rule trusted), painting as an arbitrary function of pixel and content; induction over the strips; the tables of colours and borders by cases.
* **C135 finding sections** — the first and last places of a section's entries (C27's order of all places in a script) say which section a search finds; the lines of the source framed as in C09 say where the ranges lie.
* **C136 the player's position** — the player as a state machine over commands and clock readings; an invariant for a stretch of playing (origin, start of the clock, nothing accumulated), kept by every update short of the end.
* **C137 the player's frames** — an invariant of all histories: every cached frame is the rendering of the loaded script at a time of its slot, keys differ, and no more than allowed; induction over the times of a test.
* **C138 the frame analyzer** — an invariant of the flood fill (visited = the earlier regions and the pixels taken so far; every neighbour of a taken pixel is taken, on the stack or not visible) gives connected components; a measure bounds the rounds; histograms by induction over the pixels.
* **C139 the frame inspector** — pixels by index arithmetic, the cursor by an invariant of all histories, boxes by induction over the positions, line scans by an invariant of the stretches found so far.
* **C140 the analysis of a whole script** — `Model/Analysis.lean` puts the models of dialogue analysis, overlap sweep, style resolution and linting together; counts are proved equal to independent counts (pairs `i < j` that meet; names with a large font), the score equal to 100 less a table of fees.
* **C141 cleaning up texts** — `Model/Utf8.lean`; induction over the text against relations that say which characters may change or go.
* **C142 checks of names, colours, sizes and pieces** — `Model/Checks.lean`; a `&str` is an address and a text, so that containment is arithmetic of addresses.
* **C143 frames are values** — `Model/Frames.lean` has a heap of buffers and frames holding places in it, with counts of holders; refinement to a list of plain pictures, by an invariant kept by every action.
* **C144 blending and backends** — same file; arithmetic of natural numbers, and induction over the order of preference.
* **C145 commands that edit incrementally** — `Model/DeltaCmd.lean` over `Model/IncEdit.lean` (C118); cases of the incremental call, induction over a batch.
* **C146 converting files** — `Model/Converter.lean` over `Model/SrtDoc.lean` (C63) and the parser; the whole chain by composing C63 with the round trip of scripts (C75).
* **C147 registry of formats** — `Model/FormatReg.lean`; the order of hash maps is a parameter, any permutation; induction over the registrations.
* **C148 generated scripts** — `Model/Generators.lean`; the generated text as the written form of a list of styles and events, then the round trip of scripts (C75); texts in pieces of plain text and tags.
* **C149 comparing pictures** — `Model/Compare.lean`; the loop as a fold with closed forms for list, sum and maximum; each pixel of a bitmap hits one pixel of the picture; arithmetic of bytes.
* **C150 the debug renderer** — `collect_debug_info` as a fold over the pixels with checked index arithmetic; the count is that of a duplicate-free list of exactly the visible pixels and the box is tight; the history by induction over any calls; the colour diagnostic for all six and eight digit colours.
* **C151 benchmarks** — `Model/Bench.lean`; the renderer with its clock is a function from the number of the call to a time or a failure; statistics by induction over the list of measurements, with exact rationals; the search for the moment and the range of events over all sections.
* **C152 preparing a script** — `Model/Prepare.lean`; a fold over the sections; the settings in force are specified as those of the last section that gives them, proved by induction over the sections; the choice from the hash map is a parameter.
* **C153 bounds of sections** — `Model/Bounds.lean`; searches forwards and backwards in the source as text; the specification says where a header stands and in which line; proved for all places that are boundaries of characters.
* **C154 registering the built-in handlers** — `Model/Builtins.lean`; induction over the list of handlers, with the table of documented tags of C49 as specification.
* **C155 fonts of a script** — `Model/FontLoad.lean`; the database is the list of what it was given; which paths are files is a parameter.
* **C156 built-in extensions** — `Model/BuiltinExt.lean` over `Model/Highlight.lean` and `Model/Complete.lean`; case analysis over commands and settings; that the end of a document is a safe place follows from C103.
* **C157 effect plugins** — `Model/Plugin.lean`; induction over the history from its end.
* **C158 chained tag and karaoke operations** — `Model/FluentTag.lean`; by the theorems on the commands (C35, C64, C95) for a text cut in three.
* **C159 errors and issues** — `Model/ErrorInfo.lean`; by cases over all errors against the texts of their messages, and by induction over histories.
* **C160 extension contexts** — `Model/ExtContext.lean`; configuration and data as the last of all writes, by induction over histories; over C20's histories that commands are run by active extensions.
* **C161 reports of commands** — `Model/Report.lean`; the loop of the event commands with the range it collects; invariant: the text is the old one with everything changed inside the range, and the loop is past the range or inside a line without marks; the remaining text gets shorter.
* **C162 unsaved changes** — `Model/Tracked.lean`; the document with its mark, path and cursors, and files as a map; invariant over all acts: unmarked means the text is that of the last load or save.
* **C163 tracked cursor** — `Model/Tracked.lean`; the cursors of the history's entries are a prefix of those before the edits, so undoing reports them in reverse; without cursors and mark the document is that of `Model/Doc.lean`.
* **C164 document extensions** — `Model/DocPlugins.lean`; the text and the registry of a document; induction over the calls: a name is answered by what the registry answered before, else by the first registration for it.
* **C165 edits at a position** — `Model/AtPos.lean`; the edits of `Model/Doc.lean` at a range whose end is a 64-bit sum, with and without overflow checks.
* **C166 editor errors** — `Model/EditorError.lean`; the messages with their contents; no kind's first words begin another's, and what follows can be cut back into numbers and names.
* **C167 messages of the library and the renderer** — `Model/ErrorInfo.lean`, `Model/RenderError.lean`; as C166: first words apart, numbers cut off the front or the end, names up to a quote.
* **C168 following a document** — `Model/Follow.lean`: what each call sends; `Says` gives the meaning of an event as a change of text; events determine the text forwards and backwards, by induction over the edits.
* **C169 the remembered validation result** — `Model/DocValid.lean`: document with validator; invariant "what is remembered is what validating the text anew gives", by induction over the steps of `Spec/DocValid.lean`.
* **C170 what tokens say of themselves** — `Model/TokenInfo.lean`: questions asked of tokens and types; columns from the coverage of C08 and the places of C92; types by complete tables.
* **C171 chained edits of a style** — `Model/StyleOps.lean`: setters fill a map whose order is given from outside; updates of different fields commute, so the edit depends only on the values last set; values from C39.
* **C172 a line parsed for its section** — `Model/LineIn.lean`: `parse_line_in_section`; compared with `Reads` of `Spec/Update.lean`, what a line is read as by its look.
* **C173 what is shown of an issue** — `Model/IssueText.lean`: `ParseIssue::format_for_display`, `is_blocking`, the names of categories and severities; the text is cut at its brackets, colons and the first line break.
* **C174 the check of benchmark results** — `Model/PerfGate.lean`: `check_perf_regression` from the directory to its exit, numbers exact; `Spec/PerfGate.lean` says where a number stands in a file and when a benchmark is too slow or has become slower.
* **C175 the validation of benchmark results** — `Model/BenchValid.lean`: `validate_bench_results` from the lines of its two files to its verdict, numbers exact; `Spec/BenchValid.lean` says what a line says and how long a benchmark may take.
* **C176 moving an event and back** — `Model/FluentTime.lean`: `EventTimer`; two moves are composed with the theorem of C36 on one move, as the moved event is again one the commands handle.
* **C177 the effect after any changes** — `Model/FluentEffect.lean`: `EventEffector`; `Spec/FluentEffect.lean` keeps the effect as a list of words; by induction on the history with the theorem of C37 on one change.
* **C178 cutting an event and putting the halves together** — `Model/FluentMerge.lean`: `EventMerger`; the theorems of C65 and C66 on one command composed.

## 3. Trusted base

* Lean 4.33.0's kernel and the axioms `propext`, `Classical.choice`,
  `Quot.sound` (the ones Lean's own library uses).  No axiom is added, no
  `sorry`, no `native_decide`/`bv_decide`.  `AXIOMS.txt` gives the output of
  `#print axioms` for every theorem of the manifest; in short:

<!-- axioms -->
* 1101 theorems: propext, Classical.choice, Quot.sound
* 134 theorems: propext, Quot.sound
* 52 theorems: propext
* 15 theorems: none
* 1 theorems: propext, Classical.choice
<!-- /axioms -->

* The reading of the Rust source: each model definition was transcribed by hand.
  The citations make this checkable; no tool connects the two.
* Rust's standard library (`str::parse`, `split`, `BTreeMap`, `sort_by` being
  stable, …) and the listed third-party crates behave as documented.  What is
  used of it is defined in `Model/Str.lean`, `StrX.lean`, `Bytes.lean`,
  `Map.lean` and `Sort.lean`.
* Parameters instead of definitions: the parser of floating-point numbers, `powf`
  and the sine (transforms, segments), letter-case folding and
  `char::is_alphanumeric` (search), the drawing of a frame (frame cache), the
  fields of a style (inheritance), user-supplied handlers and documents.  A
  theorem holds for every value of its parameters, under the laws it states.

## 4. What is modelled

<!-- modelled -->
* `Model/Alignment.lean`: Alignment — `crates/ass-renderer/src/layout/{alignment,positioning/coords}.rs`
* `Model/Analysis.lean`: The analysis of a whole script — `crates/ass-core/analysis/{construction,queries,mod}.rs`
* `Model/Analyzer.lean`: The frame analyzer — `crates/ass-renderer/src/debug/analyzer/{mod,report}.rs`
* `Model/Animation.lean`: Animation tracks — `crates/ass-renderer/src/animation/{timing,track,value,state,controller}.rs`
* `Model/Ast.lean`: Event and style lines — `crates/ass-core/parser/{ast,sections}`
* `Model/AtPos.lean`: Edits at a position — `crates/ass-editor/core/document/position_api.rs`
* `Model/Atlas.lean`: Texture atlas — `crates/ass-renderer/src/utils/caches.rs` lines 86-184
* `Model/Batch.lean`: Commands and batches of commands — `crates/ass-editor/commands/{text_commands,batch_command,command_result,fluent_builder}.rs`, `crates/ass-editor/core/document/validation.rs`
* `Model/Bench.lean`: Benchmarks
* `Model/BenchValid.lean`: The validation of benchmark results — `crates/ass-core/bin/validate_bench_results.rs` and `validate_bench_results/{loader,types,validate}.rs`
* `Model/Bitmaps.lean`: A frame as one picture and as a list of bitmaps — `crates/ass-renderer/src/backends/software/mod.rs`
* `Model/Blend.lean`: Compositing — `crates/ass-renderer/src/backends/coverage/{blend,composite}.rs`
* `Model/Blur.lean`: Gaussian blur — `crates/ass-renderer/src/backends/blur.rs`, the tiles it is applied to (`backends/software/text/blur.rs`, `backends/software/vector.rs`) and the boxes kept for cropping (`backends/software/dirty.rs`)
* `Model/Bounds.lean`: The bounds of sections
* `Model/Builders.lean`: Builders of event and style lines — `crates/ass-editor/core/builders/{event,event_build,style,style_build,style_format}.rs`
* `Model/BuiltinExt.lean`: Settings and commands of the built-in extensions
* `Model/Builtins.lean`: Registering the built-in handlers — `crates/ass-editor/extensions/registry_integration/`
* `Model/Bytes.lean`: Byte offsets into strings
* `Model/Checks.lean`: Checks of names, colours, sizes and pieces of a source — `crates/ass-core/utils/{fields,spans}.rs`, `crates/ass-core/utils/errors/{format,resource}.rs`
* `Model/Clip.lean`: Clips and the colours of drawings — `crates/ass-renderer/src/backends/software/vector.rs`, `backends/software/text/prepare.rs`, `pipeline/build/drawing.rs`, `pipeline/build/text/effects.rs`
* `Model/Collision.lean`: Collision resolver — `crates/ass-renderer/src/collision/{mod,resolver}.rs`
* `Model/Color.lean`: Colours — `crates/ass-core/utils/color.rs`
* `Model/Compare.lean`: Comparing pictures, and the reference pictures they are compared with
* `Model/Complete.lean`: Auto-completion — `crates/ass-editor/extensions/builtin/auto_complete/*`
* `Model/Converter.lean`: Converting between formats — `crates/ass-editor/utils/formats/{types,converter,file_io,plain_text,export_srt,import_srt,import_webvtt}.rs`
* `Model/Cursor.lean`: Edits at a position and over a selection — `crates/ass-editor/core/fluent/{position,selection,document_ext}.rs`
* `Model/DebugRender.lean`: The debug renderer and the colour diagnostic
* `Model/DeltaApply.lean`: Section deltas on an editor document
* `Model/DeltaCmd.lean`: Commands that edit incrementally — `crates/ass-editor/commands/delta_commands/{insert,replace,event_edit,batch}.rs`
* `Model/Dialogue.lean`: Analysis of dialogue events — `crates/ass-core/analysis/events/{dialogue_info,scoring,utils}`
* `Model/Dirty.lean`: Dirty regions, cropping and clearing
* `Model/Doc.lean`: Editor document text, edits and undo history
* `Model/DocEdit.lean`: Editing events and properties through the document
* `Model/DocPlugins.lean`: The extensions of a document — `crates/ass-editor/core/document/plugins.rs`
* `Model/DocValid.lean`: A document and its validator — `crates/ass-editor/core/document/{validation,editing,undo_redo}.rs`, `commands/text_commands.rs`
* `Model/Drawing.lean`: Drawings — `crates/ass-renderer/src/pipeline/{drawing/{mod,parse,spline}.rs,build/drawing.rs,animation.rs}`
* `Model/EditorError.lean`: The texts of the errors of the editor — `crates/ass-editor/core/errors`
* `Model/Encoding.lean`: Encodings — `crates/ass-core/utils/utf8/{validation,encoding}/*.rs`, `utils/errors/encoding/validation.rs`, `tokenizer/simd/utf8.rs`
* `Model/ErrorInfo.lean`: Errors and collections of issues — `crates/ass-core/utils/errors`, `parser/errors`, `tokenizer/state`, `crates/ass-editor/core/errors`
* `Model/EventCmd.lean`: Event commands
* `Model/Events.lean`: Event channel — `crates/ass-editor/events/{registry,dispatch,filter,channel}.rs`
* `Model/ExtContext.lean`: What extensions do through their context — `crates/ass-editor/extensions/{context,manager_lifecycle,manager_access}.rs`
* `Model/Extensions.lean`: Extension manager — `crates/ass-editor/extensions/{manager,manager_loading,manager_access,context}.rs`
* `Model/Float.lean`: `str::parse::<f32>` of the standard library
* `Model/Fluent.lean`: The fluent operations on events — `crates/ass-editor/core/fluent/{event_ops,event_accessor,event_deleter,event_merge_timing}.rs`
* `Model/FluentEffect.lean`: Effects by the fluent interface — `crates/ass-editor/core/fluent/event_toggle_effect.rs`
* `Model/FluentMerge.lean`: Merging events by the fluent interface — `crates/ass-editor/core/fluent/event_merge_timing.rs`
* `Model/FluentTag.lean`: Chained tag and karaoke operations — `crates/ass-editor/core/fluent/{tag,karaoke,karaoke_builders}.rs`
* `Model/FluentTime.lean`: Moving events in time by the fluent interface — `crates/ass-editor/core/fluent/event_merge_timing.rs`
* `Model/Follow.lean`: The events a document sends — `crates/ass-editor/events/{event,event_query}.rs`, `core/document/{editing,incremental_edit,incremental_fast, undo_redo,validation}.rs`
* `Model/FontLoad.lean`: The fonts a script brings — `crates/ass-renderer/src/pipeline/font_loader.rs`
* `Model/FontSelect.lean`: Which font a text is drawn with — `crates/ass-renderer/src/pipeline/shaping/font_select.rs`
* `Model/FormatDoc.lean`: Importers and exporters of the format registry: SRT and WebVTT
* `Model/FormatReg.lean`: The registry of formats, and the ASS format — `crates/ass-editor/formats/{registry,traits}.rs`, `formats/ass/format.rs`
* `Model/Formats.lean`: Subtitle format conversion — `crates/ass-editor/utils/formats/*.rs`, `crates/ass-editor/formats/{srt,webvtt}/time.rs`
* `Model/FrameCache.lean`: Frame cache and incremental rendering — `crates/ass-renderer/src/renderer/mod.rs`
* `Model/Frames.lean`: Frames and their shared buffers — `crates/ass-renderer/src/renderer/frame.rs`; blending of two colours — `crates/ass-renderer/src/pipeline/compositing/mod.rs`; choice of a backend — `crates/ass-renderer/src/renderer/probing.rs`
* `Model/Generators.lean`: Model: the generators of scripts for benchmarks
* `Model/Gpu.lean`: The GPU compositor — `crates/ass-renderer/src/backends/gpu/{mod,pool,readback,target,layer,shader,pipeline}.rs`, `gpu/compositor/{mod,tiles,present}.rs`
* `Model/Handlers.lean`: The built-in tag handlers — `crates/ass-core/plugin/tags`
* `Model/Highlight.lean`: Syntax highlighting — `crates/ass-editor/extensions/builtin/syntax_highlight/*`
* `Model/IncEdit.lean`: Incremental editing of a document
* `Model/Incremental.lean`: Incremental parsing — `crates/ass-core/parser/script/{incremental,partial}.rs`, `parser/incremental/*.rs`, `parser/streaming/source.rs`
* `Model/Index.lean`: Search indexes — `crates/ass-editor/utils/indexing/{common,fst,fst_build,fst_search,linear,mod}.rs`
* `Model/IndexUpdate.lean`: Keeping the word index up to date — `crates/ass-editor/utils/search/{incremental,trait_impl,index}.rs`
* `Model/InfoCmd.lean`: Commands on script properties
* `Model/InfoOps.lean`: The fluent operations on script properties — `crates/ass-editor/core/fluent/script_info.rs`
* `Model/Inspector.lean`: The frame inspector — `crates/ass-renderer/src/debug/inspector/{mod,info}.rs`
* `Model/IssueText.lean`: What is shown of an issue — `crates/ass-core/parser/errors/parse_issue/{issue,category,severity}.rs`
* `Model/Karaoke.lean`: Karaoke commands — `crates/ass-editor/commands/karaoke_commands/`
* `Model/Layout.lean`: Layout helpers — `crates/ass-renderer/src/layout/{context,metrics,multiline,positioning/{coords,info}}.rs`
* `Model/LineBreaks.lean`: Line breaks of a text — `crates/ass-core/analysis/events/line_breaks.rs` and the counts of `crates/ass-core/analysis/events/text_analysis/{helpers,parser}.rs`
* `Model/LineCol.lean`: Line/column conversion
* `Model/LineIn.lean`: A line parsed for a section — `crates/ass-core/parser/script/auto.rs`
* `Model/Lint.lean`: Linting and validation — `crates/ass-core/analysis/{construction.rs,linting/**}`, `crates/ass-editor/utils/validator/`
* `Model/Look.lean`: The look of a run of text — `crates/ass-renderer/src/pipeline/build/text/{colors,defaults,effects,mod}.rs`, `crates/ass-renderer/src/pipeline/build/style.rs`
* `Model/Lookup.lean`: Finding sections — `crates/ass-core/parser/script/{lookup,container}.rs`
* `Model/Map.lean`: Finite maps
* `Model/Media.lean`: Commands on embedded fonts and graphics — `crates/ass-editor/commands/fonts_graphics_commands/`
* `Model/MediaOps.lean`: Questions about embedded files — `crates/ass-editor/core/fluent/media.rs`
* `Model/MemPool.lean`: Session memory pool — `crates/ass-editor/sessions/memory/{config,stats,pool,gc,strategy}.rs`
* `Model/Outcome.lean`: Outcomes of Rust calls
* `Model/Overlap.lean`: Overlap detection — `crates/ass-core/analysis/events/overlap/{detection,sweep}.rs`
* `Model/Override.lean`: Override blocks and dialogue text — `crates/ass-core/analysis/events/tags/parser.rs`, `crates/ass-core/analysis/events/text_analysis/{parser,helpers}.rs`
* `Model/Paint.lean`: Painting text — `crates/ass-renderer/src/backends/software/text/*.rs`, `backends/software/cache/*.rs`
* `Model/Parser.lean`: The script parser — `crates/ass-core/parser/{main,sections,binary_data,position_tracker,script}`
* `Model/PerfGate.lean`: The check of benchmark results — `crates/ass-core/bin/check_perf_regression.rs` and `check_perf_regression/{analysis,loading,types}.rs`
* `Model/Place.lean`: Placing lines of text — `crates/ass-renderer/src/pipeline/build/{position,text/position,text/mod}.rs`
* `Model/Player.lean`: The debug player — `crates/ass-renderer/src/debug/player/{mod,playback,render,testing}.rs`
* `Model/Plugin.lean`: Effect plugins of the renderer
* `Model/Prepare.lean`: What the renderer takes from a script — `crates/ass-renderer/src/pipeline/build/{run,style,mod}.rs`
* `Model/Query.lean`: Event queries — `crates/ass-editor/core/fluent/{event_query,event_query_exec,event_query_filter,query_types}.rs`
* `Model/Range.lean`: Positions and ranges — `crates/ass-editor/core/position/{points,range,selection}.rs`
* `Model/Raster.lean`: The scanline rasterizer — `crates/ass-renderer/src/backends/raster/{mod,span}.rs` and `CoverageTile::rasterize`, `backends/coverage/mod.rs`
* `Model/Registry.lean`: The extension registry — `crates/ass-core/plugin/registry.rs`
* `Model/RenderCaches.lean`: Glyph, shaped-text and drawing caches — `crates/ass-renderer/src/utils/caches.rs` lines 11-84 and `crates/ass-renderer/src/cache/mod.rs` lines 39-151
* `Model/RenderError.lean`: The errors of the renderer — `crates/ass-renderer/src/utils/errors.rs`
* `Model/Report.lean`: What commands report — `CommandResult` (command_result.rs lines 20-66) of the event, style and media commands
* `Model/Resolved.lean`: Resolved styles and the style analyzer — `crates/ass-core/analysis/styles/{resolved_style,analyzer,validation}/`
* `Model/Scope.lean`: Searching part of a document, and with regular expressions — `crates/ass-editor/utils/search/{basic,regex_search,trait_impl}.rs`
* `Model/Search.lean`: Search and replace — `crates/ass-editor/utils/search/{basic,query,index,trait_impl}.rs`
* `Model/SectionExt.lean`: Sections the parser does not know — `crates/ass-core/parser/main/{section,registry,helpers}.rs`, `plugin/registry.rs`, `plugin/sections/aegisub/processors.rs`
* `Model/Segment.lean`: Styled segments of a dialogue text — `crates/ass-renderer/src/pipeline/text_segmenter/{mod,split,apply}.rs`, `crates/ass-renderer/src/pipeline/tag_processor/{parse,types}.rs`
* `Model/Select.lean`: Active event selection — `crates/ass-renderer/src/renderer/{event_selector,time_index}.rs`
* `Model/Sessions.lean`: Session manager — `crates/ass-editor/sessions/{lifecycle,access,session}.rs`
* `Model/Shape.lean`: Shaped text and glyph outlines — `crates/ass-renderer/src/pipeline/shaping/{shape,font_metrics,glyph_renderer,mod}.rs`
* `Model/Simd.lean`: Accelerated scanning — `crates/ass-core/tokenizer/simd/{delimiters,hex}.rs`
* `Model/Sort.lean`: Sorting
* `Model/SrtDoc.lean`: SRT and WebVTT documents — `crates/ass-editor/utils/formats/{export_srt,import_srt,export_webvtt,import_webvtt}.rs`
* `Model/Stack.lean`: Stacking simultaneous subtitles — `crates/ass-renderer/src/pipeline/build/{run,position,mod}.rs`
* `Model/Str.lean`: Strings
* `Model/StrX.lean`: More of `str`: lines, searching and splitting with string patterns (std behaviour, trusted as documented)
* `Model/Stream.lean`: Streaming parser — `crates/ass-core/parser/streaming/{parser.rs,processor/**,state/**,result.rs}`
* `Model/StyleCmd.lean`: Commands on styles
* `Model/StyleOps.lean`: Chained edits of a style — `crates/ass-editor/core/fluent/style.rs`, `commands/style_commands/edit.rs`
* `Model/Styles.lean`: Style dependency order and inheritance — `crates/ass-core/analysis/styles/analyzer/{dependency,analysis}.rs`
* `Model/Sync.lean`: Documents shared between threads — `crates/ass-editor/core/thread_safety/{sync_document,document_pool,scoped_lock}.rs`
* `Model/TagCmd.lean`: Commands on override tags — `crates/ass-editor/commands/tag_commands/{insert,remove,replace,wrap,parse}.rs`
* `Model/TagProc.lean`: All tags of an event at once — `crates/ass-renderer/src/pipeline/tag_processor/mod.rs`
* `Model/Time.lean`: ASS time strings — `crates/ass-core/utils/time.rs`
* `Model/TokenInfo.lean`: What tokens say of themselves — `crates/ass-core/tokenizer/tokens/{token,token_type}.rs`
* `Model/Tokenizer.lean`: The tokenizer — `crates/ass-core/tokenizer/{ass_tokenizer,next_token}.rs`, `scanner/*.rs`, `state/context.rs`
* `Model/Tracked.lean`: The cursor, the file and the unsaved changes of a document
* `Model/Transform.lean`: Animated transforms — `crates/ass-renderer/src/pipeline/{transform/{mod,parse}.rs,build/animation.rs}`
* `Model/UU.lean`: UU coding — `crates/ass-core/utils/uu.rs` and `crates/ass-editor/commands/fonts_graphics_commands/encoding.rs`
* `Model/Update.lean`: Changing a parsed script — `crates/ass-core/parser/script/{auto,update,batch,mutate,tracking,delta}.rs`
* `Model/Utf8.lean`: Text clean-up helpers — `crates/ass-core/utils/utf8/`
* `Model/Warp.lean`: Transforms and perspective — `backends/geometry.rs`, `backends/software/text/prepare.rs`, `utils/math.rs` of `crates/ass-renderer/src`
* `Model/Wrap.lean`: Word wrapping — `crates/ass-renderer/src/pipeline/build/wrap.rs`
<!-- /modelled -->

Each definition cites the lines it models and says where it simplifies.

Not modelled: font loading and shaping, rasterisation of outlines, blur and GPU
back ends, floating-point rounding, regular expressions, `plugin/sections`,
messages and help texts, actual concurrency of `RwLock`/`Mutex` (only
sequentially consistent interleavings of whole calls), memory allocation failure,
and wall-clock time.

## 5. Disagreements

What the code does contrary to the property, each with a proved witness:

<!-- disagreements -->
* `C02_no_overflow_violated` (Time parsing accepts exactly the documented grammar): disagreement. "Never a crash": a syntactically valid time of more than 2^32-1 centiseconds overflows the final `u32` expression.
* `C03_rejects_nonhex_violated` (Colour parsing is faithful): disagreement. Not every accepted string has a payload of hexadecimal digits only: a plus sign is accepted in place of the first digit.
* `C08_limit_violated` (Tokenizer always makes progress): disagreement. A source of 51 tokens, each returned by the single calls, is refused.
* `C08_cr_violated` (Tokenizer always makes progress): disagreement. A carriage return at the end of the source makes tokenizing fail.
* `C09_unclosed_violated` (Section scanning is total): after an unclosed bracket, a known section with its header and its event is lost.
* `C10_blanks_violated` (Event lines round-trip): fails for a text with outer blanks: they are lost.
* `C10_names_violated` (Event lines round-trip): fails for field names the reader takes but the writer does not (and conversely): `start` in lower case is written empty; `Actor` is written but not read.
* `C10_text_middle_violated` (Event lines round-trip): fails for a field list in which the text is not last: its commas move the other fields.
* `C11_parent_violated` (Style lines round-trip): fails for a style with a parent: the line `*Parent,Name,…` is read as a style that has one, and written without it.
* `C11_star_violated` (Style lines round-trip): fails for a style whose name begins with `*`: the line is taken for one with a parent and, a field being missing then, refused.
* `C11_names_violated` (Style lines round-trip): fails for field names the reader takes but the writer does not: `fontname` is written empty.
* `C12_undo_replace_violated` (Undo restores the text): disagreement. Undoing a replacement by a longer text leaves part of the replacement behind.
* `C13_redo_twice_violated` (Redo restores the undone text): disagreement. After two undos, two redos do not work: the first redo discards the remaining redo entries.
* `C15_rejected_replace_violated` (Edits do exactly what they say or nothing): disagreement. A replace that starts inside the last character fails after having deleted that character: a rejected edit changes the document.
* `C16_overlaps_empty_violated` (Range algebra): disagreement. For an empty range inside another the code reports an overlap although no position is shared.
* `C19_delivery_violated` (Event handlers: registration order, limits and identity): disagreement. An event is not delivered to every accepting handler: one handler's error keeps the event from all later ones.
* `C21_stale_index_violated` (Active subtitle selection): disagreement. When an event's times are edited in place (same vector, same length), the selector keeps answering from the old times.
* `C21_second_section_violated` (Active subtitle selection): disagreement. Events of a second events section are never selected.
* `C22_exact_violated` (Overlap detection is exact): disagreement. An event of zero duration is reported as overlapping with every later event, however far away.
* `C23_inheritance_violated` (Style inheritance is applied): disagreement. Inheritance is not applied, not even for one style with one parent: the child that leaves its font size to the parent does not get it (it is dropped altogether).
* `C24_separated_violated` (Collision resolver separates subtitles): disagreement. The chosen box can overlap an earlier one although the screen has room for both: the event is only moved in one direction and then clamped back onto the one in the way.
* `C24_free_position_violated` (Collision resolver separates subtitles): free-position search. It does not keep the position inside the bounds: moving down it never compares with the top, so a box above the screen is returned unchanged.
* `C25_in_bounds_violated` (Texture atlas regions are disjoint and in bounds): disagreement. A request wider than the atlas is granted and sticks out on the right.
* `C26_bounded_violated` (Caches are bounded and never wrong): disagreement. A cache created with capacity 0 holds one entry.
* `C28_context_change_violated` (Frame cache is transparent): disagreement. After the context is replaced (new output size) the cached frame of the old size is still returned.
* `C28_other_script_violated` (Frame cache is transparent): disagreement. Another script whose text happens to lie at the same address with the same length gets the frame of the first one.
* `C29_multibyte_violated` (Search finds every occurrence; replace-all replaces them): disagreement. Searching for a text that starts with a character of two bytes panics as soon as it is found.
* `C29_empty_violated` (Search finds every occurrence; replace-all replaces them): disagreement. So does searching for the empty text.
* `C29_folding_violated` (Search finds every occurrence; replace-all replaces them): disagreement. Case-insensitive search uses offsets of the lower-cased text in the original one; where lower-casing changes lengths the search panics.
* `C29_index_violated` (Search finds every occurrence; replace-all replaces them): disagreement. Once the word index is built (default features), an occurrence that is not a whole word is not found, and a case-sensitive search for a capitalised word finds nothing.
* `C29_replace_violated` (Search finds every occurrence; replace-all replaces them): disagreement. Overlapping occurrences: removing `aaa` from `aaaa` fails (and leaves `a`), and replacing `aa` by `b` in `aaa` gives `b` instead of `ba`.
* `C31_export_total_violated` (SRT timestamps round-trip): disagreement. The time parser accepts this start time (a fraction with many digits), and exporting it to SRT panics: the multiplication by ten overflows.
* `C33_total_violated` (Dialogue text analysis is total and extracts visible text): does not hold for every text: a text ending in `{` crashes the analysis, and so does an unclosed block ending in a character of several bytes, and a block with `\é`.
* `C33_lone_backslash_violated` (Dialogue text analysis is total and extracts visible text): does not hold for every text: a backslash at the end is shown nowhere, although a backslash followed by an ordinary character is shown.
* `C34_total_violated` (Override tags are located where they are): does not hold for every block: `\é` crashes the parser.
* `C34_unclosed_violated` (Override tags are located where they are): fails for a block left open: its last byte is not read, so `{\b1` is reported as `\b` without argument.
* `C35_blanks_violated` (Karaoke generation preserves the words): does not hold for every text: two blanks become three, and a blank at the end is lost.
* `C35_split_total_violated` (Karaoke generation preserves the words): fails for some positions: a position inside a character crashes the command.
* `C35_apply_empty_violated` (Karaoke generation preserves the words): fails for an empty pattern: the command crashes.
* `C36_toggle_all_violated` (Timing adjustment keeps events well ordered): disagreement. Toggling all events of a script misses the one after each switched event: the positions of the following lines are not adjusted to the new length.
* `C36_toggle_panics_violated` (Timing adjustment keeps events well ordered): disagreement. Toggling an event crashes when the next line begins with a character outside ASCII.
* `C36_timing_all_violated` (Timing adjustment keeps events well ordered): disagreement. If moving the times changes the length of an event line, the next event is missed.
* `C37_comma_violated` (Editing one field preserves the others): disagreement. Blanks next to the last comma of the text are lost when the times are moved.
* `C37_paren_violated` (Editing one field preserves the others): disagreement. A closing parenthesis without an opening one in the text: the event gains a comma.
* `C37_multibyte_violated` (Editing one field preserves the others): disagreement. A comma after a character outside ASCII: the command crashes.
* `C38_substring_violated` (Script-info set/get): fails for the other properties: setting `Title` changes `Original Title`.
* `C38_delete_violated` (Script-info set/get): fails for deleting: deleting `Title` destroys the line of `Original Title` and joins it with the next line; the property `Title` itself stays.
* `C38_empty_violated` (Script-info set/get): fails for an empty value written without a blank: setting the property adds a second line.
* `C38_comment_violated` (Script-info set/get): fails for the list of all properties: a comment with a colon is listed as a property.
* `C39_prefix_violated` (Style commands touch only the named style): fails when the name of an earlier style begins with the given name: deleting `Def` deletes the style `Default` and leaves `Def`.
* `C39_comment_violated` (Style commands touch only the named style): fails for a name mentioned anywhere before: a comment that mentions the style is deleted.
* `C39_clone_refused_violated` (Style commands touch only the named style): fails for a new name that is the beginning of an existing one: `Def` is said to exist.
* `C39_rename_violated` (Style commands touch only the named style): fails for the name field: renaming a style through its name field drops `Style: ` from the line.
* `C39_edit_ignored_violated` (Style commands touch only the named style): fails for a format line without blanks after the commas (which the parser accepts): the edit is reported as done, but nothing changes.
* `C40_carriage_return_violated` (Streaming is independent of chunking): disagreement. A piece that ends with a carriage return is taken for ended lines: the line is cut there.
* `C40_bytes_violated` (Streaming is independent of chunking): disagreement. A piece that ends within a character is refused, although the whole is a text.
* `C40_sections_violated` (Streaming is independent of chunking): disagreement. No section is ever delivered, whatever was fed.
* `C42_cache_violated` (Validation verdict): disagreement. The cache takes two different texts for the same: a script with errors is called valid.
* `C42_limit_violated` (Validation verdict): disagreement. With the default configuration a script with an error is called valid, because only the first hundred issues are looked at.
* `C42_threshold_violated` (Validation verdict): disagreement. With the threshold at critical, every script is called valid, for linting never calls an issue critical.
* `C44_violated` (Line wrapping loses no text): a blank before a word that is too wide is lost, for the line with nothing on it is dropped: what comes out is not the line cut at blanks.
* `C45_bounce_violated` (Animation progress is a clamped monotone function of time): for a negative acceleration: half-way, where the sine is 1, the progress is one and a half, and at the end it falls back to 1.
* `C46_rows_violated` (Legacy alignment conversion): both conversions put the top of SSA into the middle and the middle of SSA to the top.
* `C46_agree_violated` (Legacy alignment conversion): the conversions disagree on 4 and on 13.
* `C48_animation_violated` (Complexity scores stay in range): does not hold for every event: the sum is kept in eight bits, so 52 animation tags (or 256 simple ones) make the analysis panic, although the score would only be 10.
* `C49_pos_violated` (Tag argument validators): Inside an override block, a correct `\pos(10,20)` is reported as malformed: the parser hands over the arguments with their parentheses, which the handler does not expect.
* `C51_drawing_violated` (Segmenting preserves the visible text): Drawing commands are text of a segment: this event shows `x` only.
* `C51_backslash_violated` (Segmenting preserves the visible text): A backslash at the end is shown if the text has a tag, and is not shown if it has none.
* `C51_total_violated` (Segmenting preserves the visible text): Some texts have no segments at all: a block with the two bytes of a colour tag's name inside a character, and a fade whose times are out of order.
* `C53_undo_execute_violated` (Undo after a command): disagreement. A delete command run through `execute_command` is recorded as an empty insertion: undo reports success and restores nothing.
* `C53_set_property_violated` (Undo after a command): fails for a new property: the insertion is not recorded, so undo reports that there is nothing to undo.
* `C54_stats_violated` (Session statistics match the sessions that exist): disagreement. The reported number of active sessions is wrong after a session id is created twice (and the first document is silently discarded).
* `C55_dependencies_violated` (Dependencies of a loaded extension are loaded): disagreement. A loaded extension's dependencies need not be loaded: initialising a name that does not exist leaves a state entry behind, which then satisfies the dependency check (and unloading never looks at dependants).
* `C55_unload_dependency_violated` (Dependencies of a loaded extension are loaded): disagreement. Even without ghost entries: unloading a dependency is not refused.
* `C56_commands_stay_violated` (Commands of an active extension stay available): disagreement. The commands of an active extension can disappear while it stays loaded: another extension registering the same command id takes it over, and unloading that one removes it.
* `C57_init_returns_violated` (Extension lifecycle calls return): disagreement. Initialising an extension with a context on the same manager need not return: if the extension reads a setting through its context — as both built-in extensions do — it waits for the lock its caller holds.
* `C59_others_untouched_violated` (Writing one atlas region leaves the others intact): disagreement. Writing a granted region that is wider than the atlas overwrites pixels of the rows below, which belong to other regions.
* `C61_incremental_violated` (Incremental rendering equals full rendering): disagreement. Incremental rendering keeps a subtitle on screen after it has ended: only events active now are examined, so an event that ended is not noticed.
* `C61_paints_over_violated` (Incremental rendering equals full rendering): disagreement. Even when a change is noticed, the new events are painted over the previous frame, so an event that ended at the same time stays visible.
* `C62_independent_violated` (Rendering does not depend on earlier scripts): disagreement. The frame of a script depends on the scripts rendered before: a script that gives no resolution of its own is drawn with the resolution left behind by the previous one.
* `C63_blank_line_violated` (Exported subtitles import back unchanged): disagreement. A text with a blank line loses everything after it.
* `C63_arrow_violated` (Exported subtitles import back unchanged): disagreement. A text line with an arrow is not read as text: it makes the import fail.
* `C63_angle_violated` (Exported subtitles import back unchanged): disagreement. Text between angle brackets disappears.
* `C64_several_violated` (Karaoke adjustment changes only durations): does not hold for every block: with two tags in a block, the shorter one is a prefix of the longer one, and setting all durations to 5 makes 50 of the 10.
* `C64_prefix_violated` (Karaoke adjustment changes only durations): does not hold for every block: the prefix of another tag's number is rewritten too, although it belongs to no timing tag of that duration (here `\k1` inside the `\t` arguments' `\k12`).
* `C64_offset_violated` (Karaoke adjustment changes only durations): does not hold for every offset: the sum may overflow.
* `C64_unclosed_violated` (Karaoke adjustment changes only durations): does not hold for a block left open: it is closed.
* `C65_unterminated_violated` (Deleting events removes exactly their lines): disagreement. Deleting an event crashes when the file ends, without a line feed, in a character outside ASCII.
* `C66_merge_between_violated` (Merging and splitting events): disagreement. Merging two events that are not neighbours deletes the events between them: the line of an event that is not merged does not survive.
* `C66_merge_last_violated` (Merging and splitting events): disagreement. Merging with an event that ends the file without a line feed is refused.
* `C67_before_format_violated` (Creating a style adds one style line): fails when a comment stands between header and format line: the style is put before the format line.
* `C67_duplicate_violated` (Creating a style adds one style line): fails for a name in use: the script then has two styles of that name.
* `C68_filter_violated` (Applying a style to events): fails for a filter that is found elsewhere in the line: documented as a filter for the text of events, it lets an event through whose style it is.
* `C68_length_violated` (Applying a style to events): fails for names of different lengths: the second event keeps the old style.
* `C68_text_violated` (Applying a style to events): fails for the rest of the line: the name between two commas of the text is changed too.
* `C68_blanks_violated` (Applying a style to events): fails for a style with blanks around it (which the command itself recognises): the command reports a changed event, but nothing changes.
* `C70_empty_violated` (Events in a time range): does not hold for empty ranges: a range without any instant, even one whose end lies before its start, finds the events around it.
* `C71_overflow_violated` (Durations): does not hold for every event: an event of 1200 hours is accepted, but asking for its milliseconds panics; so does the average of two events of 10000 hours.
* `C74_blank_violated` (Line numbers of parsed things): after a blank line before a section the line numbers are too small.
* `C75_formats_violated` (Writing a parsed script and parsing it again): fails where two sections of events have field lists of their own: both are written by the last one.
* `C75_files_violated` (Writing a parsed script and parsing it again): fails where a section has two embedded files: the second becomes data of the first.
* `C75_parent_violated` (Writing a parsed script and parsing it again): fails for a style with a parent.
* `C76_length_violated` (Embedded files survive being added, parsed and decoded): (lengths): a font of 46 bytes comes back without its last byte; one of 27 bytes comes back empty.
* `C76_second_violated` (Embedded files survive being added, parsed and decoded): (a second font): adding two fonts yields a single one when parsed, with the name of the first.
* `C77_add_violated` (Listing, adding, removing and clearing embedded files): (adding): where the next header follows directly, the new entry is glued to the last line.
* `C77_remove_prefix_violated` (Listing, adding, removing and clearing embedded files): (removing, the name): removing `a` removes the font `ab`.
* `C77_remove_extent_violated` (Listing, adding, removing and clearing embedded files): (removing, the extent): removing the last font of a section removes all sections up to the next line `fontname:` in the document.
* `C77_exists_violated` (Listing, adding, removing and clearing embedded files): (asking): a file added under a name with a blank at its end does not exist afterwards under this name.
* `C78_far_violated` (Compositing a tile changes exactly the pixels it covers): for a tile placed as far to the top as a position can be: nothing of it is on the frame, and negating the position overflows. The same for a bitmap, and for positions close to that one.
* `C79_alpha_violated` (Transforms are understood as written): for the usual way of writing a transparency: the transform is dropped.
* `C79_accel_violated` (Transforms are understood as written): for an acceleration of ten and more: it is taken as the end.
* `C80_style_violated` (A running transform interpolates from the value in force to its target): for fields that are known from the style only: with a style that is opaque and has a border of 4, the text becomes transparent and the border thinner when a transform begins that leads to where they are.
* `C80_late_violated` (A running transform interpolates from the value in force to its target): for a time far behind the beginning of the event: a multiplication overflows.
* `C81_reset_style_violated` (Tags in force on a segment): `\r` with a style name, which should reset to that style, is ignored: the text stays bold.
* `C81_reset_position_violated` (Tags in force on a segment): `\r` also drops the position, which belongs to the whole event.
* `C81_no_argument_violated` (Tags in force on a segment): `\b` without an argument, which should return to the style's weight, switches bold on.
* `C81_legacy_alignment_violated` (Tags in force on a segment): The older `\a6` means the middle of the top and is taken for `\an6`, the right of the middle row.
* `C81_vector_clip_violated` (Tags in force on a segment): A vector clip is ignored.
* `C82_inherited_violated` (Lint rules report exactly the faults they are for): disagreement. A style that takes its font size from its parent is reported as undefined.
* `C82_second_section_violated` (Lint rules report exactly the faults they are for): disagreement. A style defined in a second section of styles is reported as undefined.
* `C82_comment_violated` (Lint rules report exactly the faults they are for): disagreement. Comment lines, which are never shown, are checked as if they were: their times are errors.
* `C82_overlap_violated` (Lint rules report exactly the faults they are for): disagreement. One unreadable time anywhere hides all overlaps.
* `C82_tag_colour_violated` (Lint rules report exactly the faults they are for): disagreement. A bad colour in a tag is missed when the tag is numbered and written with a small `h`, or when its value is not closed by `&`.
* `C82_unknown_tag_violated` (Lint rules report exactly the faults they are for): disagreement. An override tag that does not exist is not reported.
* `C82_short_violated` (Lint rules report exactly the faults they are for): disagreement. An event shown for 4.99 seconds is reported as one too short to be read: hundredths of a second are taken for milliseconds.
* `C82_total_violated` (Lint rules report exactly the faults they are for): disagreement. Linting can crash: a backslash followed by a letter outside ASCII, within the brackets of a tag.
* `C84_format_violated` (Streaming: the current section): disagreement. A line directly after an event is swallowed, whatever it is: the list of fields is not changed.
* `C84_styles_violated` (Streaming: the current section): disagreement. A section of styles that the script parser reads is unknown to the streaming parser.
* `C85_violated` (Wrapped lines fit): one word that is too wide raises the limit for all lines when they are balanced: three words that did not fit side by side are put on one line.
* `C86_refused_violated` (Updating a line at an offset changes exactly that line): disagreement. An atomic batch of updates each of which can be made by itself, at places of different lines, is refused: when the last line of a section has been updated, the other lines of the section are not found any more.
* `C86_again_violated` (Updating a line at an offset changes exactly that line): disagreement. A line that has been updated cannot be updated again at the same offset.
* `C86_last_violated` (Updating a line at an offset changes exactly that line): disagreement. When the last line of a section has been updated, no other line of that section can be.
* `C86_field_violated` (Updating a line at an offset changes exactly that line): disagreement. A field is not put in the place of the line at the offset: the line there stays, and the field is changed or added elsewhere in the section.
* `C87_empty_violated` (Change tracking records every change): disagreement. Giving a value to a field that had none is not recorded.
* `C87_add_violated` (Change tracking records every change): disagreement. Added styles and events are never recorded, although they change the script.
* `C88_removed_violated` (The difference of two scripts leads from one to the other): disagreement. With two sections more in the other script the differences cannot be carried out: the numbers of the sections to remove do not take into account those removed before.
* `C89_self_violated` (A delta says exactly what changed between two parses): disagreement. With two sections of one kind, a script differs from itself.
* `C89_second_violated` (A delta says exactly what changed between two parses): disagreement. A second section of a kind that was there before is not seen.
* `C89_issues_violated` (A delta says exactly what changed between two parses): disagreement. Issues that the old script had too are given as new.
* `C90_format_violated` (Parsing what changed gives what a full parse gives): disagreement. A change of the format line of the events, which decides how they are read, is not seen.
* `C90_insert_violated` (Parsing what changed gives what a full parse gives): disagreement. An event inserted before the first one is not seen.
* `C90_dropped_violated` (Parsing what changed gives what a full parse gives): disagreement. In a script with `[V4 Styles]`, which parsing knows, changing a style removes all styles.
* `C90_spans_violated` (Parsing what changed gives what a full parse gives): disagreement. The places of a section parsed anew are counted from its header, not from the beginning of the source.
* `C90_stale_violated` (Parsing what changed gives what a full parse gives): disagreement. After a change outside all sections, the places of the sections behind it are not moved.
* `C90_version_violated` (Parsing what changed gives what a full parse gives): disagreement. The version of the script stays the old one when its field is changed, and issues are lost.
* `C90_remark_violated` (Parsing what changed gives what a full parse gives): disagreement. When a remark names the header of a section, a change in that section empties it.
* `C91_end_violated` (Ranges follow edits): disagreement. The line range of an insertion at the end of the source begins at line 0.
* `C92_column_violated` (Tokens are what they say and where they say): disagreement. With `simd`, the column of the colon in `Title: x` is 1 instead of 6.
* `C92_line_violated` (Tokens are what they say and where they say): disagreement. With `simd`, after a carriage return and a text the next line feed is not counted.
* `C93_plus_violated` (Accelerated scanning agrees with plain scanning): disagreement. A plus sign is accepted in a short number, but not in a longer one.
* `C93_comment_violated` (Accelerated scanning agrees with plain scanning): disagreement. A semicolon within a line begins a comment only without the feature `simd`.
* `C93_position_violated` (Accelerated scanning agrees with plain scanning): disagreement. The position in the error of the accelerated check is counted from the last whole chunk.
* `C94_count_violated` (Encoding checks tell the truth): disagreement. A U+FFFD that stands in the text is counted as a replacement, if there is one elsewhere.
* `C94_bom_violated` (Encoding checks tell the truth): disagreement. A valid text that begins with a full-width exclamation mark is refused as a broken byte order mark.
* `C95_braces_violated` (Tag commands change exactly the tags they name): disagreement. A tag that is already in braces is refused, although the code has a branch for it.
* `C95_place_violated` (Tag commands change exactly the tags they name): disagreement. The place of a tag is one byte too small, and further off behind characters of several bytes.
* `C95_prefix_violated` (Tag commands change exactly the tags they name): disagreement. Removing bold also removes borders and blurs, whose names begin with the same letter.
* `C95_comment_violated` (Tag commands change exactly the tags they name): disagreement. Removing or replacing tags loses the other text in their block.
* `C95_pattern_violated` (Tag commands change exactly the tags they name): disagreement. A pattern without a backslash loses its first character: `b` removes every tag. An empty one, or one that begins with a character of several bytes, panics.
* `C95_unclosed_violated` (Tag commands change exactly the tags they name): disagreement. Where a block is not closed, replacing loses all text from there on; so does removing.
* `C95_closing_violated` (Tag commands change exactly the tags they name): disagreement. A border is closed by ending bold, a shadow by ending a strike-out.
* `C96_line_violated` (Event queries return exactly the matching events in the requested order): disagreement. Every event is said to be in line 1, at the beginning of the document.
* `C96_regex_violated` (Event queries return exactly the matching events in the requested order): disagreement. Asking for regular expressions changes nothing: they are looked for as texts.
* `C96_time_violated` (Event queries return exactly the matching events in the requested order): disagreement. A time that the library itself reads, `0:00:01`, is in no time range; one it refuses, with 99 minutes, is.
* `C96_overflow_violated` (Event queries return exactly the matching events in the requested order): disagreement. One time of more than 32 bits makes every query by time panic.
* `C96_chain_violated` (Event queries return exactly the matching events in the requested order): disagreement. Changing the timing, the type or the effects of the found events always fails.
* `C97_margins_violated` (Built lines mean what was given to the builder): disagreement. The margins at the top and the bottom are not written, not even for the version that has them.
* `C97_comma_violated` (Built lines mean what was given to the builder): disagreement. A comma in a field moves all fields behind it; the builder does not refuse it.
* `C97_break_violated` (Built lines mean what was given to the builder): disagreement. A line break in the text ends the line: the rest is not part of the event.
* `C97_old_style_violated` (Built lines mean what was given to the builder): disagreement. Of a style built for the oldest version the outline colour and the transparency are not read back: the names used for them are not known to the reader.
* `C98_undo_violated` (Section deltas change the sections they name and can be undone): C98, negated: undoing right after an applied delta does not give the text before it back: nothing was recorded, so there is nothing to undo.
* `C98_undo_earlier_violated` (Section deltas change the sections they name and can be undone): C98, negated: when an earlier edit is in the history, undoing after a delta takes the earlier edit's place in the changed text: here the comment added by the delta loses letters although the edit being undone was in the name of the font, which the delta had moved.
* `C98_atomic_violated` (Section deltas change the sections they name and can be undone): C98, negated: a delta that fails has already changed the text: the events are gone when the old style section is not found under its new name.
* `C98_duplicate_violated` (Section deltas change the sections they name and can be undone): C98, negated: removing one of two sections of a kind removes both.
* `C98_comment_violated` (Section deltas change the sections they name and can be undone): C98, negated: a header named in a comment is taken for the section: removing the events cuts the script information off and leaves the events.
* `C99_colour_export_violated` (Subtitles survive the SRT and WebVTT formats of the registry): fails for colours on export. A colour tag is deleted, and its end becomes an end tag without a start.
* `C99_colour_import_violated` (Subtitles survive the SRT and WebVTT formats of the registry): fails for colours on import. Red in SRT (red, green, blue) becomes blue in the script (blue, green, red).
* `C99_empty_line_violated` (Subtitles survive the SRT and WebVTT formats of the registry): fails for an empty line in a text: what follows it is lost.
* `C99_empty_text_violated` (Subtitles survive the SRT and WebVTT formats of the registry): fails for an event without text: it is lost.
* `C99_warning_violated` (Subtitles survive the SRT and WebVTT formats of the registry): fails for warnings: the file this library writes is imported with a warning.
* `C99_soft_break_violated` (Subtitles survive the SRT and WebVTT formats of the registry): fails for soft line breaks: they become hard ones.
* `C99_cut_off_violated` (Subtitles survive the SRT and WebVTT formats of the registry): fails for a cut off time line: the WebVTT importer panics.
* `C99_position_violated` (Subtitles survive the SRT and WebVTT formats of the registry): fails for a position given without a line: it is ignored (so are, the numbers being fractions, all in percent).
* `C99_brackets_violated` (Subtitles survive the SRT and WebVTT formats of the registry): fails for numbers in angle brackets in WebVTT: they are taken for time stamps and deleted.
* `C99_font_end_violated` (Subtitles survive the SRT and WebVTT formats of the registry): (SRT markup), violated. The end of a font becomes the end of a colour: text after it keeps the font and loses the colour set before.
* `C99_font_text_violated` (Subtitles survive the SRT and WebVTT formats of the registry): (export), violated. A backslash and `fn` in the text, outside of any tag, become a font.
* `C100_true_violated` (The style analyzer resolves, scales and checks every style): a style with a flag set the way other programs write it (`-1`) does not resolve.
* `C100_zero_violated` (The style analyzer resolves, scales and checks every style): a style cannot set a property back to `0`: a shadow, an outline, an angle, a spacing or a vertical margin of `0` is taken from the parent.
* `C100_hundred_violated` (The style analyzer resolves, scales and checks every style): nor can it set a scale back to `100`.
* `C100_flag_violated` (The style analyzer resolves, scales and checks every style): a flag that cannot be read is not an error under a parent, it is ignored.
* `C100_sections_violated` (The style analyzer resolves, scales and checks every style): the styles of a second section of styles are not found.
* `C100_circle_violated` (The style analyzer resolves, scales and checks every style): the conflict about circular inheritance names all styles, not those of the circle.
* `C100_children_violated` (The style analyzer resolves, scales and checks every style): a style others inherit from is not told about them: its list of children is empty, so that it counts as a leaf.
* `C100_depth_violated` (The style analyzer resolves, scales and checks every style): the depth of a style is not how far it is from a root, but 1 for every style with a parent.
* `C100_size_error_violated` (The style analyzer resolves, scales and checks every style): a style whose font size is not positive is not reported: it does not resolve, and only resolved styles are looked at.
* `C101_bspline_violated` (Drawings are drawn as written and placed where they belong): the spline of `s` is not the B-spline it is meant to be: a B-spline stays within the box of its points, and the curve drawn does not.
* `C101_exponent_violated` (Drawings are drawn as written and placed where they belong): numbers with an exponent are readable but not in a drawing.
* `C101_discarded_violated` (Drawings are drawn as written and placed where they belong): one bad command discards the drawing, the parts before it as well.
* `C101_incomplete_violated` (Drawings are drawn as written and placed where they belong): whether a command without its coordinates is an error depends on the command before it: a lone `l` is accepted after a line.
* `C101_late_violated` (Drawings are drawn as written and placed where they belong): times far out make the renderer panic.
* `C101_level_violated` (Drawings are drawn as written and placed where they belong): the level of the drawing mode is not looked at: a drawing after `\p2` is not half as large as after `\p1`.
* `C101_unplaced_violated` (Drawings are drawn as written and placed where they belong): without a position the drawing hangs from the middle of the frame, wherever its alignment would put it: a shape that fits does not stay on the frame.
* `C102_stale_violated` (Syntax highlighting marks what stands in the document): after an edit the old tokens are returned until someone clears the cache.
* `C102_carriage_violated` (Syntax highlighting marks what stands in the document): with carriage returns the ranges drift by a byte for each line.
* `C102_style_violated` (Syntax highlighting marks what stands in the document): the blanks after `Style:` are left out of the count, so the ranges of the style's name and fields are too far left.
* `C102_empty_violated` (Syntax highlighting marks what stands in the document): some tokens cover nothing: every event has an empty field before its text.
* `C102_limit_violated` (Syntax highlighting marks what stands in the document): the limit is exceeded.
* `C103_header_violated` (Auto-completion offers what fits at the cursor): the cursor in front of a section header is a panic.
* `C103_tags_violated` (Auto-completion offers what fits at the cursor): after a tag earlier in the line, no tags are offered in a new block.
* `C103_field_violated` (Auto-completion offers what fits at the cursor): fields are offered by the whole line, not by what is typed before the cursor.
* `C104_pinned_lines_violated` (Lines of text stand where alignment, margins and position say): all lines of a pinned event are drawn on top of one another.
* `C104_stretched_violated` (Lines of text stand where alignment, margins and position say): a line of a single run that is stretched by `\fscx` is not centred.
* `C104_centre_violated` (Lines of text stand where alignment, margins and position say): a centred line is centred on the frame even when its margins differ.
* `C104_zero_violated` (Lines of text stand where alignment, margins and position say): a margin of zero written `0000`, as scripts usually do, is taken for a margin of zero and not for the style's.
* `C104_default_violated` (Lines of text stand where alignment, margins and position say): an event with an unknown style gets the alignment of the default style, but not its margins.
* `C105_style_colour_violated` (Text is painted in the colours of its tags or style, as opaque as alpha and fade say): a small `h` or a decimal number, which overrides and the core library read, makes the style's colour white.
* `C105_alpha_violated` (Text is painted in the colours of its tags or style, as opaque as alpha and fade say): `\alpha` should set the transparency of all parts, it leaves outline and shadow opaque.
* `C105_alpha_order_violated` (Text is painted in the colours of its tags or style, as opaque as alpha and fade say): of `\1a` and a later `\alpha` the earlier counts.
* `C105_fade_violated` (Text is painted in the colours of its tags or style, as opaque as alpha and fade say): a `\fade` that appears at once (first and second time 0) is invisible in the first frame, and one that vanishes at once is still visible at that time.
* `C105_overflow_violated` (Text is painted in the colours of its tags or style, as opaque as alpha and fade say): the fade of an event near the end of the range of times panics.
* `C106_bold_violated` (Text gets exactly the effects its tags and style ask for): a style with `Bold: 1`, as some programs write it, is not bold.
* `C106_border_violated` (Text gets exactly the effects its tags and style ask for): on a frame that is stretched, `\bord2` draws an outline of another width to the sides than `\xbord2`.
* `C106_border_order_violated` (Text gets exactly the effects its tags and style ask for): `\bord` after `\xbord` should set both axes; the earlier `\xbord` stays.
* `C106_shear_violated` (Text gets exactly the effects its tags and style ask for): `\fay` alone does nothing.
* `C106_angle_violated` (Text gets exactly the effects its tags and style ask for): the angle of the style is ignored.
* `C107_lines_violated` (Lines keep all text with its tags, and karaoke syllables follow one another): a blank line between two line breaks takes no room, the lines around it close up.
* `C107_alpha_violated` (Lines keep all text with its tags, and karaoke syllables follow one another): `\2a` is ignored.
* `C107_second_line_violated` (Lines keep all text with its tags, and karaoke syllables follow one another): the syllables of a second line begin with the event instead of after the first line.
* `C107_split_syllable_violated` (Lines keep all text with its tags, and karaoke syllables follow one another): another tag within a syllable makes a second syllable of the same length out of the rest.
* `C107_drawing_violated` (Lines keep all text with its tags, and karaoke syllables follow one another): a drawing that is a syllable takes no time.
* `C108_frame_violated` (Subtitles shown at the same time are stacked): disagreement. A subtitle that is alone and stands within the frame may be moved: the pipeline of the software backend takes every screen to be 1080 pixels high.
* `C108_leaves_frame_violated` (Subtitles shown at the same time are stacked): disagreement. Stacked subtitles may leave a frame that is less than 1080 pixels high, although there is room.
* `C108_mention_violated` (Subtitles shown at the same time are stacked): disagreement. A text that only mentions `\pos`, outside of any override block, counts as one that says where it stands: it is drawn over another subtitle.
* `C108_unknown_style_violated` (Subtitles shown at the same time are stacked): disagreement. Two subtitles at the top of the screen cover one another when their style does not exist: they are drawn in the default style, but give way as if they stood at the bottom. The same goes for the alignment of a legacy `\a` tag.
* `C109_place_violated` (What the search indexes find): C109 fails with carriage returns: every line ended by two bytes moves the following places by one.
* `C109_found_violated` (What the search indexes find): C109 fails: what is reported as found need not stand there — the range has the length of the query but begins where the word begins, and the query may be scattered over the word.
* `C109_case_violated` (What the search indexes find): C109 fails: with case distinguished, a query with a capital letter finds nothing, for the words are kept in lower case only.
* `C109_replace_violated` (What the search indexes find): C109 fails: replacing what was found destroys other text.
* `C109_linear_place_violated` (What the search indexes find): C109 fails for the simple index: the second word of a line is reported one byte after the first.
* `C109_linear_limit_violated` (What the search indexes find): C109 fails for the simple index: the limit is not kept.
* `C109_linear_replace_violated` (What the search indexes find): C109 fails for the simple index: replacing goes from front to back with the places of the text before.
* `C110_first_line_violated` (Searching part of a document, and with regular expressions): C110 fails for scopes beginning with the first line: its first character is not searched.
* `C110_beyond_violated` (Searching part of a document, and with regular expressions): C110 fails for scopes after the end of the text, the empty last line included: the whole text is searched.
* `C110_sections_violated` (Searching part of a document, and with regular expressions): C110 fails: the names of sections are not looked at.
* `C110_whole_words_violated` (Searching part of a document, and with regular expressions): C110 fails: asking for whole words finds parts of words.
* `C110_range_violated` (Searching part of a document, and with regular expressions): C110 fails: a range that begins behind the text, or in the middle of a character, stops the program.
* `C110_stale_violated` (Searching part of a document, and with regular expressions): C110 fails for a document that has been edited since it was indexed: other text is overwritten.
* `C111_shift_violated` (The word index follows the edits): C111 fails: behind the change the old places are moved by a guess and stay next to the right ones.
* `C111_cut_violated` (The word index follows the edits): C111 fails: reading a stretch of the text again makes words of the pieces at its ends.
* `C111_panic_violated` (The word index follows the edits): C111 fails: with characters of several bytes near the change the program stops; so it does when the guesses about earlier changes lead behind the end of the text.
* `C111_no_ranges_violated` (The word index follows the edits): C111 fails: without ranges of changes the old text is kept, whatever the document has become.
* `C112_undo_violated` (A document shared between threads behaves as if its operations were carried out one after another): Not undone.** A command carried out through a shared document changes the text but is not recorded: it cannot be undone, and undoing afterwards reverts an earlier edit at a place that has moved.
* `C112_pool_violated` (A document shared between threads behaves as if its operations were carried out one after another): Two documents created at the same reading of the clock have the same id: the second one put into the pool replaces the first.
* `C113_atomic_violated` (Batches of commands): Not all or nothing.** A batch that fails leaves the changes made before the failure in the text, and nothing is recorded: they cannot be undone.
* `C113_range_violated` (Batches of commands): A later edit further to the front moves the places of the earlier ones, but not the reported range: the change lies outside of it.
* `C113_undo_violated` (Batches of commands): Not undone.** Of other commands too little is recorded: undoing a batch under a description with the word `batch` succeeds without doing anything; undoing a replacement removes the new text without bringing back the old; undoing a batch of insertions at two places also removes the text in between, which was there before.
* `C113_direct_violated` (Batches of commands): Not recorded.** Commands carried out with `command()`, `insert_at`, `delete_range` and `replace_range` are not recorded at all: undoing then reverts an earlier edit, at a place that has moved.
* `C114_premultiplied_violated` (Blurring softens without losing or inventing anything): The pictures drawn and composited hold colours multiplied by alpha, but the blurred one does not: beside a white shape the colour exceeds the alpha, so that the glow is painted as bright as the shape itself over anything that lies below.
* `C114_text_room_violated` (Blurring softens without losing or inventing anything): With a heavy outline the tile for text is too small: no room is made for the outline, which begins left of the tile.
* `C114_text_hint_violated` (Blurring softens without losing or inventing anything): Blurred text is drawn upright whatever its rotation, but the box kept for it is that of the rotated outlines: with a quarter turn of a line 100 wide and 10 high about its origin (500, 300), the right end of what is drawn lies outside of the box.
* `C115_cached_violated` (Painting text: cached shapes, karaoke and decorations): A blurred text drawn after one that is also turned out of the plane shows the picture of the latter, which was kept under the same key.
* `C115_same_violated` (Painting text: cached shapes, karaoke and decorations): With an outline and a shadow, underlining changes the shadow: that of underlined text has the shape of the outline too.
* `C115_line_violated` (Painting text: cached shapes, karaoke and decorations): The line under a text turned by a quarter stays horizontal: the end of the turned text is elsewhere.
* `C116_stretch_violated` (Turning, stretching, slanting and tilting text): Widths within a hundredth of the height's are not applied: long lines of text at 101 percent are shown a hundredth too narrow.
* `C116_slant_violated` (Turning, stretching, slanting and tilting text): Text slanted sideways moves by the slant times its height above the baseline: it is slanted about a point below its middle.
* `C116_straight_violated` (Turning, stretching, slanting and tilting text): The baseline of a line 1200 pixels wide, tilted so that its left end comes behind the camera, is no longer straight.
* `C116_resolution_violated` (Turning, stretching, slanting and tilting text): The camera stays as far away as it is: on a canvas of twice the size the perspective is stronger.
* `C116_matrix_violated` (Turning, stretching, slanting and tilting text): Slants are ignored.
* `C117_twin_violated` (Editing events and properties through the document): disagreement. Of two events with the same kind, layer and times, editing the second overwrites the line of the first; the second stays as it was, and what the first said is lost.
* `C117_format_violated` (Editing events and properties through the document): disagreement. When the section has another field list, the line is still written by the usual one: the event's text, read back, has commas before it.
* `C117_spacing_violated` (Editing events and properties through the document): disagreement. An event written without a blank behind the colon, or with more of them, cannot be edited.
* `C117_kind_violated` (Editing events and properties through the document): disagreement. With a builder that changes nothing, an event of another kind becomes dialogue, and a number that is not one, or is negative, becomes 0.
* `C117_names_violated` (Editing events and properties through the document): disagreement. A field list that the parser reads, with a name in small letters, is refused.
* `C117_text_violated` (Editing events and properties through the document): disagreement. The text of an event is replaced in the title and in the name of a style as well, when it occurs there first; the event keeps its text.
* `C117_field_violated` (Editing events and properties through the document): disagreement. A comment, or another property whose name ends with the name, is changed in place of the property; and a property that the document does not have is not set, though the call succeeds.
* `C118_first_violated` (Incremental edits of a document): (report), disagreement. The first long edit of a new document reports no change at all, whatever it brings.
* `C118_second_violated` (Incremental edits of a document): (text), disagreement. The next long edit at the end of that document panics.
* `C118_typed_violated` (Incremental edits of a document): (text), disagreement. Typing at the end of a document opened from a text, and then pasting there, panics.
* `C118_undo_short_violated` (Incremental edits of a document): (undo), disagreement. Undoing a short edit takes away as many bytes as the edit had taken away, not as many as it had put in, and says it succeeded: the new text, or its end, stays, or text after it is lost.
* `C118_typing_violated` (Incremental edits of a document): (undo), disagreement. What was typed stays after undo; and undoing a deletion overwrites what follows.
* `C118_undo_long_violated` (Incremental edits of a document): (undo), disagreement. Undoing a long edit that reports at most two sections, none of them added, succeeds and changes nothing: the new text stays.
* `C118_redo_violated` (Incremental edits of a document): (redo), disagreement. After a long edit, undo and redo, the whole document is the debugging output of a section.
* `C118_undo_sections_violated` (Incremental edits of a document): (undo), disagreement. Undoing an edit of three sections puts back more than there was: the sections after each of them come with it.
* `C119_right_violated` (Layout helpers put text where its tags and margins say): (position), disagreement. Text aligned to the right is centred on the point given by `\pos`, as if it were aligned to the middle.
* `C119_margins_violated` (Layout helpers put text where its tags and margins say): (alignment), disagreement. Text aligned to the right is put in the middle of the screen; and centred text ignores the margins.
* `C119_origin_violated` (Layout helpers put text where its tags and margins say): (rotation), disagreement. Without `\org` the point of rotation does not follow `\pos` and `\move`: it is where it would be without them.
* `C119_hurried_violated` (Layout helpers put text where its tags and margins say): (movement), disagreement. A movement without times is over at once, and one read from a tag, whose times are kept in hundredths of a second, takes a tenth of the time asked for: after a tenth of it the text is at the end.
* `C119_priority_violated` (Layout helpers put text where its tags and margins say): (priority), disagreement. With both `\pos` and `\move` the two calls disagree: one takes `\pos`, the other `\move`.
* `C119_context_violated` (Layout helpers put text where its tags and margins say): (context), disagreement. Centred text is put in the middle of the screen, whatever the margins.
* `C119_width_violated` (Layout helpers put text where its tags and margins say): (lines), disagreement. The width counts bytes: a line of as many letters as another is laid out twice as wide if the letters are not ASCII.
* `C120_reset_violated` (Reading all tags of an event at once): (reset), disagreement. `\r` does not take back what was set before it, as it does in the segmenter.
* `C120_font_violated` (Reading all tags of an event at once): (font), disagreement. `\fn` without a name, which goes back to the style's font, sets an empty name.
* `C120_soft_violated` (Reading all tags of an event at once): (breaks), disagreement. A soft line break cannot be told from a hard one.
* `C120_start_violated` (Reading all tags of an event at once): (karaoke), disagreement. `\kt` before a syllable, where it belongs, is lost; after it it is kept.
* `C120_fade_violated` (Reading all tags of an event at once): (crash), disagreement. Times of `\fade` that go backwards stop the program where overflow is checked.
* `C121_integer_violated` (Animation tracks): Whole numbers far apart crash.
* `C121_sequence_violated` (Animation tracks): Two animations of the size, one after the other. While the first one runs, the state has the value at which the second one begins: the first one is never seen.
* `C121_quiet_violated` (Animation tracks): An animation that ends before it begins is never active and yet changes the state.
* `C121_times_violated` (Animation tracks): A tag of an event that ends before it begins crashes, even when it gives both moments; so does a moment beyond 2³².
* `C121_names_violated` (Animation tracks): Rotation about the other axes, spacing and clipping are taken for rotation in the plane, size and colour.
* `C121_script_violated` (Animation tracks): Modifiers as scripts write them, name and value, and with the single value in parentheses that the source speaks of, animate nothing.
* `C121_values_violated` (Animation tracks): A value that cannot be read, such as one with a blank in front, is replaced without notice; a closing parenthesis before the opening one crashes.
* `C122_unnoticed_violated` (Session memory pool): What is allocated is not noticed until the next reset: with any amount in the arenas, the figures of a new pool are zero, it is not under pressure, and its usage is acceptable.
* `C122_reclaimed_violated` (Session memory pool): A collection that gives memory back says that it gave back none.
* `C122_peak_violated` (Session memory pool): The peak before a reset is not recorded.
* `C122_pressure_violated` (Session memory pool): Once the memory in use is above the pressure threshold and resetting does not bring it below, as when one large chunk is kept, every access to the main arena wipes what was allocated since the one before.
* `C122_hybrid_violated` (Session memory pool): The combined strategy does not reset the count of accesses: after a thousand accesses it collects at every evaluation, although the main arena is never reset.
* `C122_manual_violated` (Session memory pool): The manual strategy promises never to reset, and yet the thousandth access wipes the main arena.
* `C122_reclaimable_violated` (Session memory pool): The figure for reclaimable memory is always zero.
* `C123_agree_violated` (Line breaks and line counts of a text): A backslash at the end is kept by one and dropped by the other; override blocks are kept as text.
* `C123_lines_violated` (Line breaks and line counts of a text): Line ends at the end: the first one of several counts for nothing, the others do, unless there is nothing before them, in which case all count. So `a` with two line ends has as many lines as one line end alone, and writing something in front of a line end takes away a line.
* `C123_bidi_violated` (Line breaks and line counts of a text): Text in Syriac, Thaana or the presentation forms of Arabic runs from right to left and is not found to.
* `C123_complex_violated` (Line breaks and line counts of a text): Every text with a line break counts as complex Unicode, even plain ASCII; so does every text with a tab.
* `C124_types_violated` (Fluent event operations reach the events they name): fails with other types of events: they have numbers for the query, but not for the deletion. Deleting the dialogues deletes the comment and keeps the dialogue.
* `C124_blank_violated` (Fluent event operations reach the events they name): fails where an event line begins with a blank: the query counts it, the deletion does not.
* `C124_format_violated` (Fluent event operations reach the events they name): fails without a field list: the query finds the event, the deletion no section to delete from.
* `C124_title_violated` (Fluent event operations reach the events they name): fails where `[Events]` stands in the title: the lines below it count as events, and one of them is deleted instead.
* `C124_place_violated` (Fluent event operations reach the events they name): fails: `get` does not know where an event stands; every event is said to be on line 1 at offset 0.
* `C124_scale_violated` (Fluent event operations reach the events they name): fails: an event of five seconds scaled by two lasts six seconds, not ten.
* `C125_remark_violated` (Typed script properties read what was set, and agree with the parsed script): fails with a remark that mentions the property: the editor changes the remark, and says the resolution is set; the parsed script has none.
* `C125_name_violated` (Typed script properties read what was set, and agree with the parsed script): fails with a property whose name ends in the same word: setting the title changes another property.
* `C125_blank_violated` (Typed script properties read what was set, and agree with the parsed script): fails for values without a blank after the colon: the parsed script has the resolution, the editor reads none.
* `C126_curated_violated` (The font chosen for a text): fails for East Asian texts: a curated font with one of the characters is taken, although another font of the database has all of them.
* `C126_unreadable_violated` (The font chosen for a text): fails where one font of the database cannot be read: a text with a character the requested font lacks gets no font at all.
* `C126_empty_violated` (The font chosen for a text): fails for the empty text: the requested font is not enough, and all fonts are read.
* `C126_japanese_violated` (The font chosen for a text): fails for a missing Japanese font: where there is a sans-serif, the Japanese names are not tried.
* `C127_cache_violated` (Shaped text, and the caches of shaping and outlines): fails where the fonts change: the text shaped with other fonts is the one shaped with the first.
* `C127_size_violated` (Shaped text, and the caches of shaping and outlines): fails for huge sizes: after a text of 65536 pixels one of 131072 has letters half as large as it should.
* `C127_font_violated` (Shaped text, and the caches of shaping and outlines): fails where the fonts change: a font of another database with the same number is drawn with the glyphs of the first.
* `C128_software_violated` (The picture the GPU compositor gives): The bytes are not those of the software backend, although compositor/mod.rs says "byte-compatible": the software backend rounds the premultiplied colour before it applies the coverage.
* `C128_far_violated` (The picture the GPU compositor gives): A bitmap far to the right of the frame makes the compositor panic, where the software backend draws nothing.
* `C128_zero_violated` (The picture the GPU compositor gives): So does a bitmap without pixels.
* `C128_size_violated` (The picture the GPU compositor gives): And one wider than the textures of the device, which the software backend draws.
* `C128_count_violated` (The picture the GPU compositor gives): And more than `2 ^ 20` bitmaps of any kind on a new compositor.
* `C128_lost_violated` (The picture the GPU compositor gives): When the picture cannot be read back the textures are lost: the next composition makes new ones.
* `C129_overlap_violated` (The coverage of an outline in each pixel): Partly covered pixels do not follow the non-zero winding rule, although raster/mod.rs says so: a contour drawn twice has the same points inside, but its edges get darker; so do outlines of glyphs that overlap.
* `C130_overflow_violated` (The tile of an outline and where it goes): The bounds are not limited: an outline three thousand million pixels to the left of the frame, or one that wide, makes the size overflow.
* `C130_coarse_violated` (The tile of an outline and where it goes): A curve is not always within the fifth of a pixel that raster/mod.rs names: at most 64 chords are used, however large the curve is, and a curve of a hundred thousand pixels is five pixels from them.
* `C130_cubic_violated` (The tile of an outline and where it goes): Cubic curves are not within a fifth of a pixel even if they are small: below, a point of the curve is farther than two fifths from every point of the two chords.
* `C131_characters_violated` (Edits at a position and over a selection): Where the code departs from its documentation ("a number of characters"): asked to delete one character, it deletes none and reports success when the character takes two bytes; asked to delete the last two characters, it deletes one.
* `C131_crlf_violated` (Edits at a position and over a selection): Where the code departs from it: on a line that ends in CR LF the CR is replaced too, so that the line then ends in LF.
* `C131_beyond_violated` (Edits at a position and over a selection): Where the code departs from it: a selection that ends beyond the text makes reading, wrapping, indenting and unindenting panic instead of returning an error, and so does replacing up to the end of the line from a position beyond the text, while `delete` on the same selection returns an error.
* `C131_within_violated` (Edits at a position and over a selection): A selection that begins or ends within a character cannot be read or wrapped: the call panics.
* `C131_undo_violated` (Edits at a position and over a selection): Where the code departs from what a user of `undo` expects: undoing an insertion at a position reports success and leaves the inserted text, because the insertion is recorded as the replacement of an empty range; undoing an indentation of two lines likewise leaves both.
* `C132_error_violated` (A frame as a list of bitmaps): Where the code departs from it: when a list cannot be made because a layer fails, then the next frame that is rendered at once on that thread, by whatever backend, has none of the text that is painted from shapes, and no error is reported.
* `C132_beyond_violated` (A frame as a list of bitmaps): Where the code departs from it: what a layer paints outside the boxes it notes is lost and then shown by a later layer's bitmap. Here the first layer paints pixel 1 and pixel 5 and notes pixels 0 to 2, and the second paints pixel 4 and notes all.
* `C132_tip_violated` (A frame as a list of bitmaps): Such layers exist: the border of a drawing is joined to a point at corners (up to four times its half width), and at the sharp corner of a drawing that ends at 0 a border of 6 paints a fifth of pixel column 9, while the box is read up to column 8.
* `C133_registry_violated` (Sections unknown to the library and the processors of extensions): (no suggestion with a registry), violated. As soon as a registry is given, even an empty one, no source at all gets a suggestion: the lines of the unknown section have been passed over before they are looked at.
* `C133_format_violated` (Sections unknown to the library and the processors of extensions): (a wrong suggestion), violated. A misspelt styles section that begins with its format line is taken for an events section when the source has events further down: the whole rest of the source is searched for `Dialogue:`, not the section.
* `C133_processed_violated` (Sections unknown to the library and the processors of extensions): (a processed section is still reported as unknown), violated. Every unknown section is reported as such, also where a processor has processed it.
* `C133_case_violated` (Sections unknown to the library and the processors of extensions): (case and blanks in the name), violated. The processor for `Aegisub Project` takes the header in any case, but is looked up by the exact text between the brackets: `[aegisub project]` and `[Aegisub Project ]` never reach it, while blanks there do not matter for the sections the library knows.
* `C134_text_violated` (Clips, and the colours and borders of drawings): (strips of text have seams), violated. Text cut into two strips whose common edge is not at a whole pixel (as happens whenever the frame is not as large as the script says) is not painted in full there: for every cut within the pixel, less than all of the pixel is painted although the strips cover it, by a quarter at worst. The same cut of a drawing leaves no seam (`C134_strips`).
* `C134_border_violated` (Clips, and the colours and borders of drawings): (how wide the border is), violated. The width asked for is the width of a line drawn along the edge of the shape, half of it inside: outside the shape only half the border asked for is seen. And a drawing has no border at all when only its style, or only the tag for the vertical width, gives one.
* `C135_inside_violated` (Finding sections by kind or by offset): (headers), violated. The section that contains an offset is not found when the offset is in its header line, in its format line or in a remark before its first or after its last entry: here every byte of the header and the format line of the styles.
* `C135_range_violated` (Finding sections by kind or by offset): (a second section of the kind), violated. The range of the events is not given if the first section of events is empty, though a second one has events.
* `C135_updated_violated` (Finding sections by kind or by offset): (after an update), violated. When the last event has been replaced by the line at its offset, no section is found at the first event any more, the range of the events ends before it begins, and the first event cannot be replaced.
* `C136_reload_violated` (Where the debug player is): (another script), violated. After another script is loaded the position may be past the end of it.
* `C136_speed_violated` (Where the debug player is): (changing speed while playing), violated. A change of the speed while playing makes the position jump ahead by the time played so far: after ten seconds at speed 1 and an update, setting the speed (even to 1 again) moves from 10 to 20 seconds.
* `C136_pause_violated` (Where the debug player is): (pausing), violated. What was played since the last update is lost by a pause: after five seconds of playing, a pause and playing on, the position is 0.
* `C136_gap_violated` (Where the debug player is): (long gaps), violated. An update so late that the position does not fit in 32 bits panics instead of ending.
* `C137_frame_violated` (The frames the debug player shows and reports): (frames), violated. With the cache on, the frame shown at 110 ms is the one rendered at 95 ms.
* `C137_size_violated` (The frames the debug player shows and reports): (size), violated. With a limit of 0 a frame is kept all the same, and shown in place of a later one.
* `C138_report_violated` (What the frame analyzer reports): (the report), violated. A frame whose buffer holds more pixels than its size makes the analyzer panic; an empty frame has no percentage.
* `C138_dominant_violated` (What the frame analyzer reports): (the dominant colour), violated. The dominant colour of three pixels of three colours is a fourth colour.
* `C139_wide_violated` (What the frame inspector shows): (moving), violated. In a frame wider than 2³¹ every step, even one of no pixels, puts the cursor in the last column; in one exactly so wide every step panics.
* `C139_move_violated` (What the frame inspector shows): (moving), violated. Moving to the right edge by the greatest step panics; in a frame without pixels setting the cursor panics, and moving it puts it far outside.
* `C139_region_violated` (What the frame inspector shows): (a region), violated. A rectangle that begins right of the frame or below it panics.
* `C139_average_violated` (What the frame inspector shows): (the colour of a segment), violated. The same two pixels followed by a transparent one have the colour of the first as their average.
* `C140_critical_violated` (The analysis of a whole script): disagreement. No script has critical issues, whatever is wrong with it: no rule gives that severity.
* `C140_overlaps_violated` (The analysis of a whole script): disagreement. The number of overlapping events is the number of pairs: four events shown together are reported as six overlapping events.
* `C140_second_section_violated` (The analysis of a whole script): disagreement. Events of a second section of events are not looked at.
* `C140_comments_violated` (The analysis of a whole script): disagreement. Comment lines, which are never shown, are counted as events, and as overlapping.
* `C140_animations_violated` (The analysis of a whole script): disagreement. An event with four simple tags — bold, italic, underlined, struck out — is counted as a complex animation, though nothing moves; an event that only fades in and out is not.
* `C141_tab_violated` (Cleaning up texts): disagreement. Tabulators stay as they are, also several in a row: not all white space becomes standard spaces, and not every stretch of white space is collapsed.
* `C141_return_violated` (Cleaning up texts): disagreement. The carriage return of a line end counts as white space, so that each line of a Windows text gets a space at its end.
* `C141_end_violated` (Cleaning up texts): disagreement. The line end after the last line is dropped, and with it an empty last line.
* `C142_decimal_violated` (Checks of names, colours, sizes and pieces of a source): disagreement. A decimal colour is accepted, but the parser of colours refuses it — or, if it has six or eight digits, takes them for hexadecimal ones: `16777215`, white, becomes a colour with blue 0x77, green 0x72 and red 0x15.
* `C142_refused_violated` (Checks of names, colours, sizes and pieces of a source): disagreement. Spellings the parser of colours reads are refused: `0xFF00FF` and bare digits.
* `C143_empty_violated` (Frames are values): disagreement. A frame without alpha channel and without any pixel is not called empty, but its conversion, the same picture, is.
* `C143_size_violated` (Frames are values): disagreement. The size of an empty frame is computed in 32 bits: for 32768 by 32768 pixels, which is 4 GiB, it overflows.
* `C144_layers_violated` (Blending of two colours, and the choice of a backend): disagreement. Compositing layers with the function of the pipeline shows none of them, whatever they are.
* `C144_available_violated` (Blending of two colours, and the choice of a backend): disagreement. A backend is called available as soon as it is built in, though it may be impossible to make; and probing for `Auto` finds nothing, though `Auto` can be made.
* `C145_event_violated` (Commands that edit incrementally): disagreement. Editing an event whose text does not occur leaves the document alone, but reports success and a change.
* `C145_batch_violated` (Commands that edit incrementally): disagreement. A batch that fails is not taken back: what came before the command that failed stays.
* `C146_plain_violated` (Converting files from and to other formats): disagreement. White space at the beginning of a text file is lost, so that it is not the same file any more.
* `C146_told_violated` (Converting files from and to other formats): disagreement. An SRT file, just exported, in which `[Events]` is mentioned is taken for a script if its format is not named: none of its dialogues is there.
* `C146_mark_violated` (Converting files from and to other formats): disagreement. A WebVTT file that begins with a byte order mark is taken for SRT if its format is not named, and imported without an error and without its cues.
* `C146_ssa_violated` (Converting files from and to other formats): disagreement. Exporting to SSA also changes these words in what is said.
* `C147_order_violated` (The registry of formats): disagreement. With two combined formats for an extension, which one is used depends on the order in which the hash map happens to give them, which differs from run to run.
* `C147_lost_violated` (The registry of formats): disagreement. A file is emptied before its new contents are made: when the exporter fails, an error is reported and what the file held is lost.
* `C148_apart_violated` (Generated scripts can be parsed and hold what was asked for): "Event start: i * 3 seconds apart", with "2.5 second duration": of the times of a script with two events the second starts after thirty seconds and lasts for twenty-five.
* `C148_refs_violated` (Generated scripts can be parsed and hold what was asked for): "Default" is the name of the first style, but with several styles the events of its turn refer to `Style0`, which is no style of the script: in a script of moderate complexity already the first event does.
* `C148_colour_violated` (Generated scripts can be parsed and hold what was asked for): The colours of a style are `i` times `&H111111`: from the seventeenth on (the largest preset has twenty) they have seven digits and cannot be read.
* `C148_minutes_violated` (Generated scripts can be parsed and hold what was asked for): Both scripts count in minutes only: the event with the number 3600 of the first and the one with the number 1800 of the second start at `0:60:00.00`, which is no time.
* `C149_size_violated` (Comparing two pictures, and the reference picture): (sizes), disagreement. Pictures of different sizes count as equal when they agree where both have pixels, and the average is taken over the first picture only: which one comes first decides how different they are.
* `C149_count_violated` (Comparing two pictures, and the reference picture): (the number of pixels), disagreement. The number of pixels goes through a 32-bit float: for a picture of 4097 by 4097 pixels it is one too small.
* `C149_cut_violated` (Comparing two pictures, and the reference picture): (the map of differences), disagreement. A map of differences that is higher than both pictures is cut off.
* `C149_mix_violated` (Comparing two pictures, and the reference picture): (mixing), disagreement. A channel of a half transparent pixel can leave the range of a byte and wrap around: faint white on fainter white gives grey.
* `C150_shape_violated` (What the debug renderer and the colour diagnostic report): Frames of different shapes with the same bytes are not told apart: a frame of two pixels side by side, and one of two pixels on top of each other.
* `C150_time_violated` (What the debug renderer and the colour diagnostic report): The time, called milliseconds here, is given to a renderer that counts hundredths of a second: for an event from five to ten seconds the report for five seconds (5000 ms) says that nothing can be seen, although the renderer draws the event at that time (500 hundredths).
* `C150_active_violated` (What the debug renderer and the colour diagnostic report): The number of active events in a report is always zero, whatever was drawn.
* `C150_spelling_violated` (What the debug renderer and the colour diagnostic report): Colours in the other documented spellings, with a small `h` or as a decimal number, are reported as errors, though they are the white and the red that the same report names when they are written in capitals.
* `C150_seven_violated` (What the debug renderer and the colour diagnostic report): With seven digits the transparency is lost: `&H8FFFFFF` is reported as an opaque white.
* `C150_overrides_violated` (What the debug renderer and the colour diagnostic report): A clip counts as a colour override, and the colour of the outline does not.
* `C151_comment_violated` (What a benchmark measures and reports): A comment counts as an event with text: a comment at the start of the script makes the benchmark measure a moment at which nothing is shown.
* `C151_backwards_violated` (What a benchmark measures and reports): An event that ends before it starts ends the program.
* `C151_score_violated` (What a benchmark measures and reports): The score of compatibility is the same for every script and every renderer, as nothing is compared.
* `C151_short_violated` (What a benchmark measures and reports): An animation shorter than four hundredths of a second has no frame, and the benchmark reports a success whose figures are not numbers.
* `C151_fps_violated` (What a benchmark measures and reports): A result that has no number of frames per second, as it took no time, counts as one with zero frames per second: the average of 200 and of nothing is 100.
* `C152_history_violated` (What the renderer takes from a script): (history), violated. A script without resolutions is prepared with those of the script before: its styles come out three times as large.
* `C152_order_violated` (What the renderer takes from a script): (order), violated. The same sections in another order give other styles: styles before the script information are not brought to the play resolution.
* `C152_default_violated` (What the renderer takes from a script): (default style), violated. Without a style named `Default` the default is meant to be the first style; it is whichever the hash map holds first, so that the same script may be drawn in different ways.
* `C152_scaled_violated` (What the renderer takes from a script): (borders), violated. `ScaledBorderAndShadow: 0` means *not scaled* to the editor and *scaled* to the renderer.
* `C153_text_violated` (Finding where a section begins and ends): (text). A header is taken for one wherever it stands in a line: with a title that names a section, the end reported for the script information is the beginning of its own title line.
* `C153_far_violated` (Finding where a section begins and ends): (far). The header of a section is not found from a place a hundred bytes behind it, though it is the only one before the place.
* `C153_start_violated` (Finding where a section begins and ends): (characters). Searching from a place between two characters stops the program if the place a hundred bytes and a header before it is within a character.
* `C153_old_violated` (Finding where a section begins and ends): (old headers). The header of the styles of older scripts, which the parser reads, is neither a beginning nor an end.
* `C154_half_violated` (Registering the built-in handlers and those of extensions): (half done). A failed registration is not undone: with a handler for `\\fad` present it fails, and yet forty-two of the built-in handlers are there afterwards, among them `\\b`, but not that for `\\clip`.
* `C154_gaps_violated` (Registering the built-in handlers and those of extensions): (gaps). Tags that the renderer carries out have no built-in handler.
* `C154_adapter_violated` (Registering the built-in handlers and those of extensions): (adapters). The handler made for a tag of an extension answers with success whatever the arguments are, even where it says of them itself that they are not valid.
* `C155_second_violated` (The fonts a script brings): (second section). Of several sections of fonts only the first is loaded.
* `C155_history_violated` (The fonts a script brings): (history). The fonts of a script stay when another script is prepared: what a script without any fonts is drawn with depends on the scripts prepared before it.
* `C155_path_violated` (The fonts a script brings): (any file). Any field whose name contains `font` has a file read, wherever the path leads.
* `C156_schema_violated` (Settings and commands of the built-in extensions): (a setting is never read). The completion announces the setting `autocomplete.min_chars`, but whatever the host gives for it, nothing differs.
* `C156_switch_violated` (Settings and commands of the built-in extensions): (settings without effect). The switches for semantic highlighting and for errors change no token, the switch for values changes no completion.
* `C156_stale_violated` (Settings and commands of the built-in extensions): (stale count). After an edit of the document the count is that of the old text.
* `C156_late_violated` (Settings and commands of the built-in extensions): (settings too late). A changed setting has no effect on a document highlighted before.
* `C156_position_violated` (Settings and commands of the built-in extensions): (stops). A place beyond the end of the document stops the program, although the command announces failures.
* `C156_ten_violated` (Settings and commands of the built-in extensions): (ten). Of more than ten completions found, the rest is reported in number only.
* `C157_glow_violated` (Effect plugins and their parameters): The glow effect changes nothing: it takes any picture, radius and strength, says it has succeeded and leaves every pixel as it was.
* `C158_whole_violated` (Chained tag and karaoke operations keep to the range that was chosen): disagreement. When no range is chosen, karaoke is not generated for the dialogue but for the text of the whole file: the first thing in it is a timing block, so that it does not begin with a section header any more, whatever the script.
* `C158_sections_violated` (Chained tag and karaoke operations keep to the range that was chosen): disagreement. After that the script has lost its sections; and applying a template without a range joins all lines of the file into one.
* `C159_event_violated` (Errors and collected issues say what happened): fails for event lines: every line that is refused as an event is refused with an error that names the line in its message, but gives no line number. (What is accepted is what `Ast.parseEvent` accepts.)
* `C159_utf8_violated` (Errors and collected issues say what happened): fails for text that is not UTF-8: the line number is the position of the first byte that is wrong.
* `C159_category_violated` (Errors and collected issues say what happened): fails for parse errors: running out of memory, input that is too large and bugs of the parser are not recoverable, but their category is that of mistakes the user can mend, of a low level; and the bug is not called one.
* `C160_config_violated` (What extensions do through their context has its effect): disagreement. In builds with a single thread an extension that sets a configuration value does not read it back, though it is told that it was set: it went to a map nobody reads.
* `C160_events_violated` (What extensions do through their context has its effect): disagreement. An event that an extension sends, with success, does not reach the receiver the manager was made with.
* `C160_messages_violated` (What extensions do through their context has its effect): disagreement. A message that an extension shows, with success, does not reach the message handler the manager was made with.
* `C160_register_violated` (What extensions do through their context has its effect): disagreement. A command that an extension registers, with success, is not among the commands.
* `C160_stopped_violated` (What extensions do through their context has its effect): disagreement. A command is run also by an extension that is no longer active: where shutting down failed, its commands stay and are given to it.
* `C161_ends_violated` (Commands on events come to an end and report where they changed the text): disagreement. Setting the effect of all events to a text in which an event line begins can go on for ever: the text behind the place of the old line is taken for the next line, and there the new effect begins an event again.
* `C161_apply_violated` (Commands on events come to an end and report where they changed the text): disagreement. Applying a style can go on for ever: if the new name looks like an event with the old style, each replacement puts such an event where the next line is looked for.
* `C161_batch_violated` (Commands on events come to an end and report where they changed the text): disagreement. Deleting two events with another between them reports an empty range, so that the second deletion goes unreported.
* `C161_media_violated` (Commands on events come to an end and report where they changed the text): disagreement. Adding a font to a document without fonts reports a range that leaves out the new section header.
* `C162_failed_violated` (A document knows whether it has unsaved changes): disagreement. A save that fails can destroy the file (`fs::write` empties it first), and a document that had no unsaved changes still says that it has none.
* `C162_path_violated` (A document knows whether it has unsaved changes): disagreement. Giving a document another path leaves it without unsaved changes, though the file there is another.
* `C162_undo_violated` (A document knows whether it has unsaved changes): disagreement. A document can say that it has unsaved changes though its text is the saved one: undoing the changes does not take the mark back.
* `C163_inside_violated` (The tracked cursor follows edits, and undoing reports where it was): disagreement. Deleting from within a character can leave the cursor behind the end of the text.
* `C163_undo_violated` (The tracked cursor follows edits, and undoing reports where it was): disagreement. So after undoing the tracked cursor is neither the one reported nor always within the text.
* `C163_exec_violated` (The tracked cursor follows edits, and undoing reports where it was): disagreement. After a command has been executed with `execute_command`, undoing reports the cursor after the command, not the one before: the cursor is moved before the entry of the history is made.
* `C164_unused_violated` (A document keeps the handlers registered with it): disagreement. Handlers for tags are not asked when a document is parsed with its extensions: registering one changes nothing about the result.
* `C164_again_violated` (A document keeps the handlers registered with it): disagreement. Setting up the registry again succeeds and takes away what was registered.
* `C164_failed_violated` (A document keeps the handlers registered with it): disagreement. A registration that fails is not without effect: the registry is set up, and the parser no longer suggests what a misspelt section may be.
* `C165_overflow_violated` (Edits at a position change exactly the text there): disagreement. A length whose end cannot be represented is not refused: with overflow checks the program panics; without them text *before* the position is deleted or replaced.
* `C165_wraps_violated` (Edits at a position change exactly the text there): disagreement. This is so for every text and every position in it: with checks every overflow panics; without them, deleting `2 ^ 64 - k` bytes deletes the `k` bytes before the position.
* `C166_core_violated` (The message of an editor error tells what happened): disagreement. The editor's own validation errors read like those of the library, from which they differ in kind.
* `C166_names_violated` (The message of an editor error tells what happened): disagreement. Extensions and features with odd names: different errors, the same message.
* `C166_replace_violated` (The message of an editor error tells what happened): disagreement. A replacement that begins within the last character names a place that lies within the document it was given.
* `C167_names_violated` (The messages of the library and of the renderer tell their errors apart): disagreement. Values and features with odd names: different errors, the same message.
* `C168_within_violated` (A listener can follow a document by its events): disagreement. An edit within a character is told with a place where it was not made: something put within the only character lands before it, the event says within.
* `C168_silent_violated` (A listener can follow a document by its events): disagreement. Undoing, redoing and executing a command are not told, though they change the text.
* `C168_short_violated` (A listener can follow a document by its events): disagreement. A short incremental edit, the one made at every key, changes the text and is not told.
* `C168_range_violated` (A listener can follow a document by its events): disagreement. The range of a replacement is not where the new text stands, as that of an insertion is.
* `C168_custom_violated` (A listener can follow a document by its events): disagreement. An event made up by a client under the name of another kind passes for it, without being a modification.
* `C169_undo_violated` (The validation result a document remembers is that of its text): disagreement. Undoing and redoing change the text, but the result remembered stays: after the header has been taken back, what is said about missing sections is wrong.
* `C169_raw_violated` (The validation result a document remembers is that of its text): disagreement. The same after a command that the client executes on the document itself.
* `C169_failed_violated` (The validation result a document remembers is that of its text): disagreement. The same after a replacement or a deletion by command that begins within the last character: it fails, but has deleted that character.
* `C170_simd_violated` (What tokens say of themselves): disagreement. With the feature `simd` columns are not counted over text: the end column of the text is not where the next token is said to begin.
* `C170_break_violated` (What tokens say of themselves): disagreement. The end column of a line break, or of a header that holds one, is not that of what follows.
* `C170_content_violated` (What tokens say of themselves): disagreement. A token with an override block calls itself content; its type says it is none. For times it would be the other way round.
* `C171_value_violated` (Chained edits of a style give each field the value last set): disagreement. A value with a comma is written as it is and moves the fields behind it; a field the format line does not name is dropped, and the edit is called a success.
* `C172_format_violated` (A line parsed for its section is what it is read as anyway): disagreement. Without a format line, lines that are read anyway (with the usual format) are refused for their section.
* `C172_blank_violated` (A line parsed for its section is what it is read as anyway): disagreement. An event line with a blank before it is refused.
* `C172_style_violated` (A line parsed for its section is what it is read as anyway): disagreement. A style line, given as it stands in the section, is read as a style with another name; and a style or event line given for the script info section is read as a field.
* `C173_break_violated` (What is shown of a parse issue tells what it is): disagreement. A message of two lines may look like a message with a suggestion; and the stretch of text is not shown.
* `C174_unread_violated` (The check of benchmark results fails just when a benchmark is too slow): disagreement. Nothing measured passes; so does a benchmark half as slow again if its file says so in other words or cannot be read as a number.
* `C175_memory_violated` (The validation of benchmark results succeeds just when no time is over its limit): disagreement. Memory is never checked, whatever the file says of it; full parsing of any length only warns; and no results at all pass.
* `C176_clamped_violated` (Moving an event in time and back again): disagreement. An event taken before the beginning does not come back: it then starts as late as it was moved.
* `C177_empty_violated` (The effect of an event after any number of changes): disagreement. Appending nothing to an effect is not doing nothing: a blank is added.
* `C178_text_violated` (Cutting an event and putting the halves together): disagreement. The text of an event that is cut and put together again stands there twice, with a blank between: the event is not what it was.
<!-- /disagreements -->
