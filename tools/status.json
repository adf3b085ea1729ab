{
 "C01": [
  "proved",
  "for every u32 duration whose hours fit; formatting is injective"
 ],
 "C02": [
  "partial",
  "exact acceptance grammar and rejection proved, including the deviations (leading +, text after a second dot); totality is violated: oversized components overflow (C02_no_overflow_violated, C02_overflow_iff)"
 ],
 "C03": [
  "partial",
  "every documented spelling of every colour parses exactly; rejection holds except that a plus sign may replace the first digit (C03_rejects_nonhex_violated)"
 ],
 "C04": [
  "proved",
  ""
 ],
 "C05": [
  "proved",
  ""
 ],
 "C06": [
  "proved",
  ""
 ],
 "C07": [
  "proved",
  ""
 ],
 "C08": [
  "partial",
  "Termination, progress, order and coverage are proved for every source; a carriage return at the end of the source is an error instead of a token, and tokenize_all refuses more than 50 tokens."
 ],
 "C09": [
  "partial",
  "Termination proved for every source. Sections in order with their contents for every source whose section-opening lines are closed (C09_sections_partial); an unclosed bracket loses the next section (C09_unclosed_violated)."
 ],
 "C10": [
  "partial",
  "proved for every event and every format with the names spelled as documented and the text last (or absent, ten fields at most), the text up to its outer blanks; C10_default gives the identical event for the default format. Violations: outer blanks of the text, other spellings, text in the middle"
 ],
 "C100": [
  "partial",
  "Resolution of one style is characterised exactly; with a parent only for fields the code treats as documented (0, 100 and odd flags are violations); analyzer results, conflicts, inheritance info for unique names and validation; numbers are exact rationals with the f32 reader as a parameter, a layout resolution of 0 and the order of reports are left out."
 ],
 "C101": [
  "partial",
  "Tokens of every text; commands, path and rejection for well formed parts, for unreadable numbers and for leftovers; placement and movement for all values without overflow. The path library is outside the model and numbers are exact rationals. The default position, the drawing level, B-splines, incomplete commands and exponents are violations."
 ],
 "C102": [
  "partial",
  "Tokens for documents without carriage returns and without a limit; ranges additionally for documents without blanks after `Style:`. Stale cache, drifting ranges, empty tokens and an exceeded limit are disagreements."
 ],
 "C103": [
  "partial",
  "The entries offered, for lines in which a block without a backslash has no backslash before it. The panic before a section header, missing tags after an earlier tag and field completion by the text after the cursor are disagreements."
 ],
 "C104": [
  "partial",
  "For styles that exist, zero margins written `0`, equal left and right margins where centred, runs measured as drawn, and a pinned event of one line. Pinned blocks drawn over each other, stretched single runs, the centre of unequal margins, `00` as a margin and the missing margins of the default style are disagreements."
 ],
 "C105": [
  "partial",
  "Without `\\alpha`, and a long fade not at the moment of a change that takes no time. `\\alpha`, its order with `\\1a`, spellings of style colours, such moments and overflowing times are disagreements."
 ],
 "C106": [
  "partial",
  "For square pixels or unscaled borders, usual styles with angle 0 and no `\\fay` alone. `Bold: 1`, stretched frames, `\\bord` after `\\xbord`, `\\fay` alone and the angle of styles are disagreements."
 ],
 "C107": [
  "partial",
  "Blank lines are lost; karaoke for one line without drawings whose runs are syllables of their own. Karaoke across lines, syllables split by other tags, drawings and `\\2a` are disagreements."
 ],
 "C108": [
  "partial",
  "Order, whole moves, direction, apartness and stillness proved for every list of events. Disagreements: the pipeline takes every screen to be 1080 pixels high (C108_frame_violated, C108_leaves_frame_violated); text that merely mentions \\pos is not stacked (C108_mention_violated); with an unknown style events give way in the wrong direction (C108_unknown_style_violated). Drawing each event is a parameter (C101, C104-C107 cover it)."
 ],
 "C109": [
  "partial",
  "The set of results (words, scope, line, column, no repetitions, limit) is proved for every text for both indexes; places are true offsets without carriage returns (C109_place_partial). Disagreements: carriage returns shift places (C109_place_violated); the reported range is not the query (C109_found_violated); case-sensitive queries with capitals find nothing (C109_case_violated); replacing destroys other text (C109_replace_violated); the simple index reports word numbers as offsets, ignores the limit and replaces at outdated places (C109_linear_place_violated, C109_linear_limit_violated, C109_linear_replace_violated). The automaton of the fst crate is taken as a sorted set with subsequence matching."
 ],
 "C11": [
  "partial",
  "proved for every style with comma-free fields and every format spelled as documented; the parent is lost (C11_parent_violated), a name beginning with * is misread (C11_star_violated), other spellings (C11_names_violated)"
 ],
 "C110": [
  "partial",
  "Line scopes not beginning with the first line, ranges, and regular expressions are proved for every text, query and limit, replacing regular-expression matches for every document. Disagreements: the first character of the first line is skipped, scopes behind the end search everything, sections and whole words are ignored, bad ranges stop the program, an edited document is overwritten at outdated places (C110_*_violated). The regex crate is a parameter."
 ],
 "C111": [
  "partial",
  "Building and rebuilding are exact; after one change every word before it and in the reread window is indexed and nothing false precedes the window (C111_single_partial). Disagreements: wrong guesses leave false places (C111_shift_violated), cut words are indexed (C111_cut_violated), multi-byte characters and second changes stop the program (C111_panic_violated), no ranges means no update (C111_no_ranges_violated)."
 ],
 "C112": [
  "partial",
  "Serializability, mutual exclusion, progress, termination and refusal after a panic are proved for every schedule, any number of threads, any operations made of small steps. Missing: guards held across operations and the try_* variants. Disagreements: commands are not recorded and cannot be undone (C112_undo_violated); documents created at one reading of the clock share an id and replace each other in the pool (C112_pool_violated)."
 ],
 "C113": [
  "partial",
  "Order, results, stopping and nesting are proved for all commands; the reported range for edits that follow one another (C113_range_partial), undoing for commands that only put one stretch of text in (C113_undo_partial, C113_typed_partial). Disagreements: failed batches leave their first changes, unrecorded (C113_atomic_violated); ranges of edits in another order are wrong (C113_range_violated); other commands are not undone (C113_undo_violated, C113_direct_violated)."
 ],
 "C114": [
  "partial",
  "Size, locality, bounds, flat areas, monotonicity, symmetry, colour and independence of the canvas are proved over exact rationals for every positive symmetric kernel; the tiles leave enough room for glyphs and filled shapes and the cropping box covers them. Fails: the result is not premultiplied although the surfaces are; no room is made for outlines of blurred text; the cropping box of rotated blurred text is that of the rotated outlines although the text is drawn upright."
 ],
 "C115": [
  "partial",
  "Painting with any caches equals painting with empty ones except where text is both blurred and turned out of the plane (witness). The cached and the direct way paint the same up to a pixel for text without both outline and shadow; with both, the cached shadow lacks the outline (witness). Lines run along upright text; with a rotation they stay horizontal (witness). Bounds of the caches, syllable colours and the growth and content of the sung part are proved in full."
 ],
 "C116": [
  "partial",
  "Fixed points of turning and tilting, distances, direction, depth, composition, blending and easing are proved over exact rationals with cosine and sine as parameters. Fails: widths within a hundredth of the height are not applied; text slanted sideways is displaced; long lines come behind the camera and break; the camera distance does not grow with the canvas; decomposed transforms ignore slants (each with a witness and the part that holds)."
 ],
 "C117": [
  "partial",
  "Which line changes and how, which edits are refused, and what is said afterwards are proved, for the usual spelling of lines and values that fit in a line. Fails: of two events with the same kind, layer and times the first is overwritten; another field list than the usual one is ignored by field edits; lines without a blank after the colon cannot be edited; builders turn other kinds into dialogue and negative numbers into 0, and refuse field names in small letters; text replacement hits titles and styles; setting a property hits comments and ignores missing properties (each with a witness)."
 ],
 "C118": [
  "partial",
  "The text after an edit, and exactly when an edit panics, are proved for every state; reports for edits of lines of sections while the parser is in step; sessions of long edits. Disagreements: short edits leave the parser behind, after which a long edit can panic; a new document pasted into twice panics; the first paste reports nothing; undo of typing leaves what was typed, of a deletion overwrites what follows, of a long edit does nothing, of an edit of three sections duplicates sections; redo writes debugging output."
 ],
 "C119": [
  "partial",
  "Exact for left and, between equal margins, centred columns, for movement with times in order, for scaling and for several lines. Disagreements: right-aligned text is treated as centred; centring ignores margins; the default point of rotation does not follow \\pos; \\move without times is over at once and times read from tags pass ten times too fast; the two calls disagree on \\pos with \\move; line widths count bytes. Rounding of f32 is not modelled."
 ],
 "C12": [
  "partial",
  "proved for any number of edits and undos on any reachable document when replacements keep the byte length; false for other replacements (C12_undo_replace_violated)"
 ],
 "C120": [
  "partial",
  "Values proved for blocks of plain tags (no \\t, \\r or vector clip) and for \\fe, \\kt, \\pbo, \\r alone; text and places for every text. Disagreements: \\r takes nothing back; \\fn without a name sets an empty one; soft breaks count as hard; \\kt before its syllable is lost; backward \\fade times crash where overflow is checked. The extension registry is not modelled."
 ],
 "C121": [
  "partial",
  "Proved: values before and after, monotone course within bounds for all three curves, exact share for the linear one, values in the state and accessors, activity, quiet periods, tracks from documented modifiers. `powf` is a parameter assumed to be a power; `f32` rounding is not modelled. Violated: whole numbers 2^31 apart, consecutive animations of one property, reversed animations and events, modifiers as scripts write them, misread names, unreadable values, misplaced parentheses."
 ],
 "C122": [
  "partial",
  "Proved for all histories: figures, resets, threshold; strategies by count, time and hand. The arenas are the number of reserved bytes, and what stays after a reset is a parameter. Violated: unnoticed allocations, reclaimed amount, peak, reclaimable figure, pressure, combined strategy, manual strategy."
 ],
 "C123": [
  "partial",
  "Proved for all texts: decomposition, shown text, positions and kinds of breaks, hard spaces, drawings, agreement without override blocks, line counts without a final line end, bounds for all. Violated: agreement for a final backslash, line counts with final line ends, right-to-left and complex scripts."
 ],
 "C124": [
  "partial",
  "Deletion proved for scripts as to_ass_string writes them with one section of dialogues and comments and a field list; scaling only for events of one second. Violated for other event types, leading blanks, missing field lists, a title with [Events], reported places, other durations."
 ],
 "C125": [
  "partial",
  "Single properties proved for every document with an information section; agreement with the parser proved for scripts as the library writes them, the information wherever it stands, whose property names do not occur elsewhere in the section. Fails for remarks, for names ending in the same word, and for lines without a blank after the colon."
 ],
 "C126": [
  "partial",
  "Proved where every font can be read; best coverage proved for texts without East Asian characters. Fails for East Asian texts where a better font is not curated, with an unreadable font, for the empty text, and for missing Japanese families where a sans-serif exists."
 ],
 "C127": [
  "partial",
  "Positions, ink, metrics and the bound proved in general; the caches while the fonts stay the same, outlines for sizes the fixed-point key holds exactly. Fails when the fonts change on one thread or in one renderer, and for sizes from 65536 pixels."
 ],
 "C128": [
  "partial",
  "Proved for up to 2^20 bitmaps, with sides up to 8192 and places up to 2^20 away, the graphics library being part of the trusted base. Fails: not byte-compatible with the software backend; panics for bitmaps far away, without pixels, with a side above the device's limit, and for more than 2^20 bitmaps; loses its textures when reading back fails."
 ],
 "C129": [
  "partial",
  "Proved in exact arithmetic in place of f32, for edges between the left and the right side. Fails: where contours overlap, partly covered pixels get the sum of the areas and not the area by the non-zero rule the documentation names."
 ],
 "C13": [
  "partial",
  "redo after one undo restores the text; false for two redos (C13_redo_twice_violated, C13_redo_clears)"
 ],
 "C130": [
  "partial",
  "Proved in exact arithmetic in place of f32. Fails: curves that would need more than 64 or 96 chords, cubic curves beyond the fifth of a pixel named for quadratic ones, bounds near the limits of i32."
 ],
 "C131": [
  "partial",
  "Insertion, wrapping, indenting, unindenting, lines and columns are proved for all texts. Deletion counts bytes, the CR of CR LF is replaced, out-of-range selections panic, and undo of an insertion leaves the text: see the negations."
 ],
 "C132": [
  "partial",
  "The list is right for layers that paint inside the boxes they note, and composites to the frame rendered at once. Borders of sharp corners are painted outside, and after a failed call text is missing: see the negations."
 ],
 "C133": [
  "partial",
  "Proved for all registries and sources with closed brackets; refuted: the suggestion disappears as soon as a registry is given, can name the wrong section, processed sections are still reported as unknown, and names are looked up exactly."
 ],
 "C134": [
  "partial",
  "Clips of drawings proved for every rectangle; for text only at whole pixels (refuted otherwise: seams). Refuted: the border of a drawing is half as wide as asked and never the style's."
 ],
 "C135": [
  "partial",
  "The text part asks for closed headers (as all whole-source claims of the parser here); offsets in headers, comments and after updates find nothing (violated), and so does the range of a kind whose first section is empty."
 ],
 "C136": [
  "partial",
  "Exact arithmetic in place of f32. Loading a shorter script, changing the speed while playing, pausing between updates and very long gaps break the claim (violated)."
 ],
 "C137": [
  "partial",
  "Rendering is a parameter. A cached frame may be from another time of the same 40 ms; a limit of 0 still keeps a frame (violated)."
 ],
 "C138": [
  "partial",
  "Exact arithmetic in place of f32. Buffers larger than the frame make the analyzer panic and the dominant colour need not occur in the picture (violated)."
 ],
 "C139": [
  "partial",
  "Moving by the greatest steps, frames without pixels and rectangles outside the frame panic; the average of a stretch that does not reach the end of the line is the colour of its first pixel (violated). The Euclidean distance of colours is not modelled."
 ],
 "C14": [
  "proved",
  ""
 ],
 "C140": [
  "partial",
  "Events, counts, styles, score, advice and issues are proved exactly. Violations: overlapping_events counts pairs, comments are counted, a second [Events] section is not looked at, static tags count as animations, has_critical_issues is never true."
 ],
 "C141": [
  "partial",
  "Exact for white space and control characters; trim_lines is proved for texts of whole lines. Violations: tabulators are kept, lone carriage returns inside lines stay, a final line feed is lost by trimming lines."
 ],
 "C142": [
  "partial",
  "All four checks are proved exact. Violations: decimal colours are accepted but not readable (or read as hexadecimal), and readable spellings are refused."
 ],
 "C143": [
  "partial",
  "Proved for all histories by refinement of a heap with shared buffers to values. Violations: an RGB frame without pixels is not called empty; sizes are computed in 32 bits."
 ],
 "C144": [
  "partial",
  "The formula, probing and creation are proved exactly. Violations: composite_layers shows none of its layers; backends that cannot be made are called available; probing for Auto finds nothing."
 ],
 "C145": [
  "partial",
  "Proved for edits that do not panic (short ones, or those the kept parse allows). Violations: editing an event whose text is not there reports success and a change; a failing batch keeps what was done before."
 ],
 "C146": [
  "partial",
  "Proved for what the formats can carry. Violations: an SRT file mentioning [Events] is taken for a script; a WebVTT file with a byte order mark loses its cues; white space at the start of a text file is lost; SSA export changes words in dialogues."
 ],
 "C147": [
  "partial",
  "Proved for all histories and orders. Violations: with two formats for an extension the choice depends on the hash order; a failing export empties the file."
 ],
 "C148": [
  "partial",
  "Proved up to the size a script may have. Violations: events refer to Style0, which does not exist; the colours from the seventeenth style on cannot be read; minutes past the hour; events are thirty, not three, seconds apart."
 ],
 "C149": [
  "partial",
  "Exact arithmetic in place of f32 sums. Violations: pictures of different sizes count as equal, large numbers of pixels are rounded, a high map of differences is cut off, and mixing half transparent colours wraps around."
 ],
 "C15": [
  "partial",
  "exact splice at character boundaries and refusal without effect proved; a replace that starts inside a character can fail after deleting (C15_rejected_replace_violated)"
 ],
 "C150": [
  "partial",
  "The renderer inside, the hash, the clock and the files are parameters. Violations: milliseconds are given to a renderer that counts hundredths of a second, the number of active events is always zero, frames of different shapes compare as equal, lower case and decimal colours are reported as errors, and clips count as colours."
 ],
 "C151": [
  "partial",
  "Exact arithmetic in place of f64, the square root is a parameter. Violations: comments count as events with text, events that end before they start end the program, short animations give figures that are not numbers, the score is constant, and tests without a number of frames count as zero."
 ],
 "C152": [
  "partial",
  "Exact arithmetic in place of f32; fonts left out; layout resolutions of zero excluded. Violations: settings of an earlier script stay in force, styles before the script information are not scaled, without a style named Default the default style depends on the order of a hash map, and a value of 0 for scaled borders is read differently by editor and renderer."
 ],
 "C153": [
  "partial",
  "Both searches are characterised for all boundaries of characters. Violations: a header in the text of an event counts, a header further than a hundred bytes back is not found, the first place may fall inside a character and stop the program, the old styles header is unknown."
 ],
 "C154": [
  "partial",
  "Complete for the functions modelled. Violations: a failed registration is left half done, tags the renderer carries out have no handler, the adapters answer with success for arguments they reject."
 ],
 "C155": [
  "partial",
  "For any script the first sections of each kind count (C155_first_partial); what the database makes of the data is outside. Violations: only the first section of fonts is loaded, fonts of an earlier script stay, any file can be named."
 ],
 "C156": [
  "partial",
  "Settings, commands and counts for all hosts and documents. Violations: the announced setting min_chars is never read, three switches have no effect, counts are stale after an edit and settings come too late for documents highlighted before, a position beyond the end stops the program, at most ten completions are given."
 ],
 "C157": [
  "partial",
  "Registry and parameters for all histories. Violation: the glow effect reports success and leaves every picture as it was."
 ],
 "C158": [
  "partial",
  "All operations over ranges between characters. Violations: without a range karaoke is generated for the text of the whole file, whose section headers are lost, and applying a template joins all its lines. Tags of a name as far as C95 has them."
 ],
 "C159": [
  "partial",
  "All errors and histories. Violations: errors of event lines give no line number, errors of encoding give a byte position for it, and parse errors about memory, size and bugs have the category of mistakes."
 ],
 "C16": [
  "partial",
  "all operations agree with the set meaning, except overlaps on empty ranges (C16_overlaps_empty_violated)"
 ],
 "C160": [
  "partial",
  "All histories. Violations: with a single thread configuration set by extensions is lost; events, messages and commands given to a context are dropped; extensions that failed to shut down still run commands."
 ],
 "C161": [
  "partial",
  "Toggling, deleting, merging and splitting: all documents. Timing, effects and applying a style: all documents in which `Dialogue:` and `Comment:` only begin lines. Violations: setting all effects to a text with an event line in it, or applying a style with such a name, never ends; deleting several events reports only the first place; adding a font leaves the new header out of the range."
 ],
 "C162": [
  "partial",
  "The text is the loaded or saved one: all histories. That the file holds it: no save fails and the path is not set by hand. Violations: a failing save can destroy the file of a document without unsaved changes; setting another path leaves the mark; undoing all changes leaves the document marked."
 ],
 "C163": [
  "partial",
  "Edits, undo reports and redo: all histories. Violations: undoing leaves the tracked cursor where it was, possibly behind the text; executed commands record the cursor after them as the one before; an edit within a character can leave the cursor behind the text."
 ],
 "C164": [
  "partial",
  "All histories without setting up the registry a second time. Violations: setting it up again drops what was registered; a failing registration on a new document still sets up the registry and thereby silences the hints of the parser; handlers for tags are never asked when parsing. The messages of failing processors are not modelled."
 ],
 "C165": [
  "partial",
  "All positions and lengths whose end can be represented. Violation: a larger length panics with overflow checks and otherwise changes the text before the position."
 ],
 "C166": [
  "partial",
  "All errors, those of the library among them; not names of extensions with a colon and of features with a quote; edits that begin between two characters. Violations: a validation error of the editor reads like one of the library; odd names of extensions and features; a replacement within the last character names the length after it was deleted."
 ],
 "C167": [
  "partial",
  "All errors but parse errors with a quote in a field or value and features with a bracket in their name, for which different errors read alike (violations)."
 ],
 "C168": [
  "partial",
  "Edits that begin and end between characters, long incremental edits, filters for the built-in kinds. Violations: undo, redo, executed commands and short incremental edits are not told; edits within a character are told with a wrong place; the range of a replacement is that of the old text; made-up events pass for others."
 ],
 "C169": [
  "partial",
  "Edits and commands with ordered ranges whose replacements and deletions begin between characters. Violations: undo and redo, commands executed on the document by the client, and replacements or deletions failing within the last character leave a stale result."
 ],
 "C17": [
  "proved",
  "for every division into lines, instantiated for ropey's default line breaks; also the rope-free variant"
 ],
 "C170": [
  "partial",
  "Columns without the feature simd and for tokens within a line; content for tokens other than override blocks. Violations: with simd columns are not counted over text; the end column of a line break is not that of what follows; tokens of override blocks and their type disagree about content."
 ],
 "C171": [
  "partial",
  "Independence of the orders in full; the values under the conditions of C39. Violations: a value with a comma moves the fields behind it; a field the format line does not name is dropped and the edit called a success."
 ],
 "C172": [
  "partial",
  "Event lines and what follows Style: without blanks around them, in scripts with format lines; fields in full. Violations: without a format line the line is refused; blanks before an event line; a whole style line gets another name; style and event lines pass for fields."
 ],
 "C173": [
  "partial",
  "Place, category, severity and blocking in full; message and suggestion for messages of one line. Violations: a message of two lines may look like one with a suggestion; the span is not shown."
 ],
 "C174": [
  "partial",
  "Numbers are exact and how they are read from text is a parameter; the wording of messages is not modelled. Violation: results that are missing or not understood pass."
 ],
 "C175": [
  "partial",
  "Numbers are exact and how they are read from text is a parameter; the wording of messages is not modelled. Violation: memory is never checked, and no results at all pass."
 ],
 "C176": [
  "partial",
  "One event at a time, in ASCII text, of the events the commands handle, with times below 2^31 and no move before the beginning. Violation: an event moved before the beginning does not come back."
 ],
 "C177": [
  "partial",
  "One event at a time, in ASCII text, of the events and words the commands handle. Violation: appending nothing adds a blank."
 ],
 "C178": [
  "partial",
  "The times and all fields but the text come back, for the events the commands handle; deleting a half shortens the event. Violation: the text of an event cut and put together again stands there twice."
 ],
 "C18": [
  "proved",
  "Limit, existence of the active session, isolation, effects and absence of underflow over all call histories."
 ],
 "C19": [
  "partial",
  "Ids, limit, count, service order and filter are proved for all histories. Delivery to every accepting handler fails when a handler returns an error (C19_delivery_violated); proved when none does, and C19_delivery_failure says exactly who is called otherwise."
 ],
 "C20": [
  "proved",
  "Ownership of commands over all histories; exact effect of unloading."
 ],
 "C21": [
  "partial",
  "exact selection proved for every script with one events section and a fresh index; a stale index after in-place edits and a second events section violate it (C21_stale_index_violated, C21_second_section_violated)"
 ],
 "C22": [
  "partial",
  "exact when every event has positive duration; an event with zero duration is reported against everything later (C22_exact_violated); unparsable times are reported (C22_bad_time)"
 ],
 "C23": [
  "partial",
  "the property is false of the code for every section with an existing parent: C23_never_inherits shows the result never depends on the inheritance rule, C23_inheritance_violated gives a witness; C23_no_parent_partial covers the rest"
 ],
 "C24": [
  "partial",
  "separation proved unless the screen edge holds the box back; on-screen, direction, batch processing and free-position soundness proved; overlaps although there is room: C24_separated_violated; free position outside the bounds: C24_free_position_violated; exact arithmetic instead of f32"
 ],
 "C25": [
  "partial",
  "disjointness for all request sequences; in bounds when no request is wider than the atlas; wider requests stick out (C25_in_bounds_violated)"
 ],
 "C26": [
  "partial",
  "freshness for all operation sequences and eviction orders; bound holds for positive capacity, capacity 0 holds one entry (C26_bounded_violated)"
 ],
 "C27": [
  "proved",
  "for rectangles whose far edges are 32-bit coordinates"
 ],
 "C28": [
  "partial",
  "transparent for one script and a fixed context; stale frame after set_context (C28_context_change_violated) or for another script at the same address (C28_other_script_violated)"
 ],
 "C29": [
  "partial",
  "Without the word index, the search reports exactly the occurrences for patterns starting with a one-byte character, and replacement equals substitution when matches do not overlap. Multi-byte and empty patterns panic, case folding that changes lengths shifts offsets, the word index misses matches inside words, and replace with overlapping matches corrupts text (violated theorems)."
 ],
 "C30": [
  "proved",
  ""
 ],
 "C31": [
  "partial",
  "Round trip, exact export and import for all canonical times (both converters) and for every accepted time text below 4294967.30 s; beyond that the multiplication by ten overflows (C31_export_total_violated)."
 ],
 "C32": [
  "proved",
  "Every canonical time, both converters; beyond the claim, also every accepted time text below 4294967.30 s (C32_value_roundtrip_partial)."
 ],
 "C33": [
  "partial",
  "Plain text proved equal to an independent notion of visible text for texts whose blocks are closed; panics on \"{\", unclosed blocks ending in a multibyte character, \"\\é\" in a block, and the dropped final backslash are proved as violations."
 ],
 "C34": [
  "partial",
  "Location, order and completeness proved for every block and every text the analysis returns on; totality only without a backslash before a multibyte character; unclosed blocks lose their last byte (violated)."
 ],
 "C35": [
  "partial",
  "Non-blank characters proved preserved for every text; exact text for texts without double or final blanks (violated otherwise); splitting and applying proved exact, with crashes for positions inside a character and empty patterns proved as violations."
 ],
 "C36": [
  "partial",
  "Toggling one event, and moving the times of one event or of any selection whose lines keep their length, proved exact with start before end; toggling or moving several events misses events and can crash (violated)."
 ],
 "C37": [
  "partial",
  "Moving times and editing the effect of a safe ASCII event changes only that field; blanks after commas are lost, an unmatched parenthesis adds a comma and commas after non-ASCII characters crash (violated)."
 ],
 "C38": [
  "partial",
  "set-then-get proved for every script with the section; other properties, delete and list when no line contains the name followed by \": \" except its own (C38_substring_violated, C38_delete_violated, C38_empty_violated, C38_comment_violated)"
 ],
 "C39": [
  "partial",
  "proved when no earlier text reads \"Style: \" followed by the name; prefix names and mentions in comments are hit instead (C39_prefix_violated, C39_comment_violated, C39_clone_refused_violated); the name field and format lines without blanks fail (C39_rename_violated, C39_edit_ignored_violated)"
 ],
 "C40": [
  "partial",
  "Full chunk independence when no chunk but the last ends with a carriage return; bytes refused exactly if not UTF-8. Disagreements: carriage return at the end of a chunk, chunks cut inside a character, no section ever delivered."
 ],
 "C41": [
  "proved",
  "All-or-nothing for every batch: an error leaves the script and its record of changes as they were, success means all updates were made in order followed by the additions. The exact condition for success is proved as well."
 ],
 "C42": [
  "partial",
  "Verdict exact when neither limit nor threshold can hide an error; the cache is exact up to hash collisions, for which a pair of texts is given. Disagreements: limit, threshold and hash collision make a script with errors valid."
 ],
 "C43": [
  "proved",
  "The colour handed to the row blend is premultiplied, as the compositing functions make it"
 ],
 "C44": [
  "partial",
  "Exact for lines without blanks at the beginning or side by side, with any arithmetic and font; otherwise up to lines that are left empty. Disagreement: a blank before a too wide word is lost."
 ],
 "C45": [
  "partial",
  "Accelerations that are not negative, exact arithmetic, powf assumed to keep [0,1] and its order; fails for negative accelerations"
 ],
 "C46": [
  "partial",
  "Keypad values and the bottom row are right and both conversions agree on well-formed values; top and middle are exchanged and the conversions disagree on other values"
 ],
 "C47": [
  "proved",
  "every sequence of calls"
 ],
 "C48": [
  "partial",
  "ranges and monotonicity proved; the animation sum overflows eight bits from 52 animation tags on (C48_animation_violated)"
 ],
 "C49": [
  "partial",
  "All 47 built-in validators proved exact and total (reading of floats as documented by the standard library); \\pos and \\move reject the arguments the block parser hands them (C49_pos_violated)"
 ],
 "C50": [
  "proved",
  "for all analysed events"
 ],
 "C51": [
  "partial",
  "Texts without drawing tags whose segments can be computed. Violated for drawings, a final backslash, and two kinds of tags that panic."
 ],
 "C52": [
  "proved",
  "The pieces are exactly the text cut at its separating backslashes."
 ],
 "C53": [
  "partial",
  "insert commands proved; delete commands are recorded as empty insertions (C53_undo_execute_violated); setting a new script property is not recorded at all (C53_set_property_violated)"
 ],
 "C54": [
  "partial",
  "Violated when an existing id is created again (C54_stats_violated); exact otherwise (C54_stats_partial)."
 ],
 "C55": [
  "partial",
  "Violated through ghost states and through unloading a dependency; proved for histories that only initialise loaded extensions and do not unload."
 ],
 "C56": [
  "partial",
  "Violated by clashing command ids; proved when ids do not clash."
 ],
 "C57": [
  "partial",
  "Violated: callbacks run while the manager lock is held (C57_init_returns_violated); proved when callbacks keep away from the manager or the context uses another manager."
 ],
 "C58": [
  "proved",
  "exactness and termination of the cycle search"
 ],
 "C59": [
  "partial",
  "proved for regions inside the atlas; a granted over-wide region overwrites others (C59_others_untouched_violated)"
 ],
 "C60": [
  "proved",
  "pixmap as a function of coordinates"
 ],
 "C61": [
  "partial",
  "false of the code: ended events stay (C61_incremental_violated, C61_paints_over_violated); equal when the active set is unchanged and static"
 ],
 "C62": [
  "partial",
  "false for scripts without their own resolution (C62_independent_violated); resolution taken from the script when it gives both"
 ],
 "C63": [
  "partial",
  "Proved for events whose text lines are non-empty, have no white space at the ends and contain no brace, no <, no arrow; blank lines, arrows and angle brackets are lost (violated theorems)."
 ],
 "C64": [
  "partial",
  "Proved for lines whose blocks hold one timing tag each; text outside blocks unchanged for all texts; several tags per block, offset overflow and unclosed blocks are violated."
 ],
 "C65": [
  "partial",
  "Proved for files whose lines end with a line feed; a file ending in a non-ASCII character without line feed crashes (violated)."
 ],
 "C66": [
  "partial",
  "Proved for safe events; merging drops the events in between and refuses an unterminated last line (violated)."
 ],
 "C67": [
  "partial",
  "proved when the format line follows the header; C67_before_format_violated, C67_duplicate_violated otherwise"
 ],
 "C68": [
  "partial",
  "proved for names of the same byte length, with and without filter; C68_length_violated, C68_text_violated, C68_blanks_violated, C68_filter_violated otherwise"
 ],
 "C69": [
  "proved",
  "every registry, block and start position"
 ],
 "C70": [
  "partial",
  "proved for non-empty ranges (C70_empty_violated otherwise)"
 ],
 "C71": [
  "partial",
  "total proved; average and milliseconds when they fit 32 bits (C71_overflow_violated otherwise)"
 ],
 "C72": [
  "proved",
  "std sort_by modelled as a stable insertion sort"
 ],
 "C73": [
  "proved",
  "For every source."
 ],
 "C74": [
  "partial",
  "Proved for every source without blank lines and with closed headers; a blank line before a section makes later numbers too small (C74_blank_violated)."
 ],
 "C75": [
  "partial",
  "Scripts whose fields can stand in their lines, one embedded file per section, no parents; fails for two field lists, several files, parents"
 ],
 "C76": [
  "partial",
  "Proved for fonts and graphics written by the encoder in any document with closed headers, and for adding to a document without the section, when the data length is not one that makes the last line look like a remark. Violations: lengths 1 or 27 above a multiple of 45 (C76_length_violated), a second font in the section (C76_second_violated)."
 ],
 "C77": [
  "partial",
  "Listing and clearing proved for all documents; adding where the section is new or ends with a line end; removing where the name is not contained earlier and no later section of the kind. Violations: C77_add_violated, C77_remove_prefix_violated, C77_remove_extent_violated."
 ],
 "C78": [
  "partial",
  "Sizes up to 2^30, areas below 2^31, positions within 2^30 of the origin; fails (overflow) for positions at the lower end of the range"
 ],
 "C79": [
  "partial",
  "Canonical numbers, lone accelerations below ten, alpha without closing ampersand; fails for the usual spelling of alpha and for large accelerations"
 ],
 "C80": [
  "partial",
  "Exact arithmetic; fields set by an override, colours and font size; fails for border, alpha, … that only the style sets, and for times seven weeks into an event"
 ],
 "C81": [
  "partial",
  "Blocks of plain tags; reset without a style; unknown names. Violated for resets to a style, resets of positioned lines, flags without argument, the older alignment tag and vector clips."
 ],
 "C82": [
  "partial",
  "Exact for durations, style colours and characters; styles up to inheritance and later sections; overlaps when all times are readable. Colours in tags, reading speed and lengths: only disagreements. Eight disagreements."
 ],
 "C83": [
  "proved",
  "Full claim."
 ],
 "C84": [
  "partial",
  "Section and line number exact; Format lines only between events. Disagreements: the line after an event is swallowed; V4++ Styles unknown."
 ],
 "C85": [
  "partial",
  "Exact arithmetic instead of f32. Balanced lines only if every single word fits. Disagreement: one too wide word raises the limit for all lines."
 ],
 "C86": [
  "partial",
  "Proved in general form (both directions) for every script and offset; for ordered scripts, which all parsed ones are, exactly the event or style at the offset is replaced. Disagreements: an updated line cannot be updated again, after the last line of a section no other line of it can, valid batches are refused for that reason, and a field line does not replace the line at the offset."
 ],
 "C87": [
  "partial",
  "Updates, added and removed sections are recorded exactly once. Disagreements: a field that had an empty value is changed without record; added styles and events are never recorded."
 ],
 "C88": [
  "partial",
  "Emptiness is proved for all pairs; carrying out the changes is proved if the other script has at most one section more. Disagreement: with two more the indices are wrong."
 ],
 "C89": [
  "partial",
  "Proved for scripts without two sections of one kind. Disagreements: with two of a kind a script differs from itself, a second section is not seen, and old issues count as new."
 ],
 "C90": [
  "partial",
  "Contents and places are proved for usual headers, each section at most once, and changes within the span of a section. The code disagrees for format lines, insertions before the first entry, [V4 Styles], places of reparsed sections, changes outside all sections, version and issues, and remarks that name a header."
 ],
 "C91": [
  "partial",
  "Proved; the line range of an insertion at the very end of the source begins at line 0."
 ],
 "C92": [
  "partial",
  "Proved without simd; with simd places and types are proved, lines if every carriage return has its line feed, and columns are wrong in the code."
 ],
 "C93": [
  "partial",
  "Delimiters and hexadecimal numbers are proved; tokens agree in sources without semicolons; the position in the error of the batch validation is wrong in the code."
 ],
 "C94": [
  "partial",
  "Validity, contents and detection are proved; the count of replacements includes genuine U+FFFD, and texts beginning with some characters from U+F000 on are refused."
 ],
 "C95": [
  "partial",
  "Proved for every text whose blocks are closed and consist of tags, and for every insertion, wrapping and range. False: names match by prefix (removing \\b removes \\bord), a pattern without a backslash removes other tags or panics, other text in a block is lost, unclosed blocks lose their text, places are off, closing tags are chosen by first letter, tags in braces are refused."
 ],
 "C96": [
  "partial",
  "Proved for all scripts whose times fit in 32 bits. False: longer times panic, times without a fraction are not read, regular expressions are ignored, line number and range are placeholders, chained operations always fail."
 ],
 "C97": [
  "partial",
  "Proved for fields without commas and outer blanks and field lists the reader knows. False: commas and line breaks are written as they are, top and bottom margins are dropped, the outline colour of old styles is not read back."
 ],
 "C98": [
  "partial",
  "Proved for documents whose headers occur once each and only at the start of sections. False: duplicates are removed together, a header in a comment is taken for the section, failed deltas leave their first steps done, and a delta is never recorded, so undo finds nothing or undoes an earlier edit in the wrong place."
 ],
 "C99": [
  "partial",
  "Import of well formed files, export of Dialogue events in the usual time form, and the round trip at the level of parsed scripts; texts with other tags, backslashes or angle brackets, malformed files and position settings are not covered (counterexamples for several of them)."
 ]
}