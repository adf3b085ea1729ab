{"id": "C01", "title": "Time format/parse round-trip", "statement": "Formatting any 32-bit centisecond count as an ASS time and parsing the result back yields the same count, so distinct times never collide in their textual form.", "quantifier": "every u32 value of centiseconds", "why_tests_cant": "4 294 967 296 inputs; carries between hours, minutes, seconds and centiseconds interact", "anchors": ["crates/ass-core/utils/time.rs: format_ass_time, parse_ass_time"]}
{"id": "C02", "title": "Time parsing accepts exactly the documented grammar", "statement": "parse_ass_time succeeds exactly on H:MM:SS or H:MM:SS.cc strings whose components are unsigned decimal integers in range, and then returns h*360000+m*6000+s*100+cs; everything else is an error rather than a wrong value or a crash.", "quantifier": "every input string", "why_tests_cant": "infinitely many strings; tests only sample a few malformed shapes", "anchors": ["crates/ass-core/utils/time.rs: parse_ass_time"]}
{"id": "C03", "title": "Colour parsing is faithful", "statement": "For every colour (r,g,b,a) each of the documented spellings (&HAABBGGRR&, &HAABBGGRR, 0x…, bare hex, 6-digit without alpha) parses to exactly [r,g,b,a]; strings whose payload is not 6 or 8 hexadecimal digits are rejected.", "quantifier": "all 2^32 colours, all spellings, all rejected strings", "why_tests_cant": "2^32 colours times spelling variants, plus infinitely many malformed strings", "anchors": ["crates/ass-core/utils/color.rs: parse_bgr_color"]}
{"id": "C04", "title": "Embedded font/graphic data survives encode then decode", "statement": "Encoding any byte string with the editor’s UU encoder and decoding the produced lines with the core decoder returns the original bytes.", "quantifier": "every byte string of any length", "why_tests_cant": "data of every length mod 3 and mod 45 and every byte value", "anchors": ["crates/ass-editor/commands/fonts_graphics_commands/encoding.rs: uuencode_data", "crates/ass-core/utils/uu.rs: decode_uu_data"]}
{"id": "C05", "title": "Line-ending normalisation", "statement": "normalize_line_endings removes every carriage return, turns every CRLF, CR and LF into exactly one LF, leaves all other characters in order, and is idempotent.", "quantifier": "every string", "why_tests_cant": "mixtures of CR and LF of any length", "anchors": ["crates/ass-core/utils/utf8: normalize_line_endings"]}
{"id": "C06", "title": "Byte order mark handling", "statement": "A UTF-8 BOM is detected and removed exactly once and the remaining bytes are unchanged; text without a BOM is returned unchanged.", "quantifier": "every byte sequence", "why_tests_cant": "quantifies over all byte sequences, including ones that share a BOM prefix", "anchors": ["crates/ass-core/utils/utf8: detect_bom, strip_bom"]}
{"id": "C07", "title": "Truncation never splits a character", "statement": "truncate_at_char_boundary returns the longest prefix of the text that consists of whole characters and is no longer than the byte limit.", "quantifier": "every text and every limit", "why_tests_cant": "all alignments of multibyte characters against the limit", "anchors": ["crates/ass-core/utils/utf8: truncate_at_char_boundary"]}
{"id": "C08", "title": "Tokenizer always makes progress", "statement": "On every source the tokenizer terminates: each returned token is non-empty and consumes source, token spans are substrings of the source in increasing order, and never overlap.", "quantifier": "every source text and every sequence of next_token calls", "why_tests_cant": "termination and coverage for arbitrary text cannot be sampled", "anchors": ["crates/ass-core/tokenizer/next_token.rs: next_token"]}
{"id": "C09", "title": "Section scanning is total", "statement": "Parsing any text terminates without error, reports (rather than aborts on) unknown sections, and keeps the recognised sections in source order.", "quantifier": "every source text", "why_tests_cant": "arbitrary malformed text", "anchors": ["crates/ass-core/parser/main: Parser::parse, parse_section"]}
{"id": "C10", "title": "Event lines round-trip", "statement": "Serialising an event and parsing that line back with the same format gives the same fields, for every event whose non-text fields contain no comma and carry no surrounding blanks.", "quantifier": "every event, any text including commas", "why_tests_cant": "text may contain any characters including commas and braces", "anchors": ["crates/ass-core/parser/ast/event: to_ass_string_with_format", "crates/ass-core/parser/sections/events: parse_event_line"]}
{"id": "C11", "title": "Style lines round-trip", "statement": "Serialising a style and parsing the line back with the same format gives the same style.", "quantifier": "every style with comma-free fields", "why_tests_cant": "23 free fields", "anchors": ["crates/ass-core/parser/ast/style: to_ass_string_with_format", "crates/ass-core/parser/sections/styles: parse_style_line"]}
{"id": "C12", "title": "Undo restores the text", "statement": "After any successful insert, delete or replace on a document, undo restores exactly the text before that edit.", "quantifier": "every document text, every edit, every history of edits", "why_tests_cant": "arbitrary sequences of edits and undos", "anchors": ["crates/ass-editor/core/document/editing.rs: insert, delete, replace", "crates/ass-editor/core/document/undo_redo.rs: undo"]}
{"id": "C13", "title": "Redo restores the undone text", "statement": "After undoing k edits, k redos restore exactly the text before the undos.", "quantifier": "every history of edits, every k", "why_tests_cant": "arbitrary interleavings of edits, undos and redos", "anchors": ["crates/ass-editor/core/document/undo_redo.rs: undo, redo"]}
{"id": "C14", "title": "Undo history stays within its limits", "statement": "Whatever sequence of edits, undos and redos is performed, the number of undo entries never exceeds the configured maximum, the memory counter always equals the memory of the stored entries, and after each recorded edit it is within the configured budget or the undo list is empty.", "quantifier": "every configuration and every operation sequence", "why_tests_cant": "unbounded histories", "anchors": ["crates/ass-editor/core/history/stack_impl.rs: push, pop_undo, push_redo, pop_redo, clear"]}
{"id": "C15", "title": "Edits do exactly what they say or nothing", "statement": "insert/delete/replace on valid positions change the text by exactly the requested splice, and a rejected edit leaves the document unchanged.", "quantifier": "every text, position, range and replacement", "why_tests_cant": "all offsets including past the end and inside multibyte characters", "anchors": ["crates/ass-editor/core/document/editing.rs", "crates/ass-editor/core/document/editing_raw.rs"]}
{"id": "C16", "title": "Range algebra", "statement": "Document ranges behave as half-open intervals: a range built from two positions is ordered, contains/overlaps/union/intersection agree with the set-of-positions meaning.", "quantifier": "all pairs of ranges and positions", "why_tests_cant": "all orderings of four endpoints over unbounded naturals", "anchors": ["crates/ass-editor/core/position: Range"]}
{"id": "C17", "title": "Line/column conversion inverts", "statement": "Converting a byte position to line and column and back returns the same position.", "quantifier": "every text and every character-boundary position", "why_tests_cant": "all texts", "anchors": ["crates/ass-editor/core/document/text_access.rs: position_to_line_column", "crates/ass-editor/core/position: PositionBuilder::build"]}
{"id": "C18", "title": "Session manager invariants", "statement": "Under any sequence of operations, the number of sessions never exceeds the limit, the active session (if any) exists, and creating/removing one session never alters another session’s document.", "quantifier": "every sequence of session operations", "why_tests_cant": "unbounded operation sequences", "anchors": ["crates/ass-editor/sessions/lifecycle.rs", "crates/ass-editor/sessions/access.rs"]}
{"id": "C19", "title": "Event handlers: registration order, limits and identity", "statement": "Under any sequence of register/unregister/clear, handler ids are unique and never reused, the count never exceeds the limit, and an event is delivered once to every matching handler in descending priority and registration order.", "quantifier": "every sequence of operations, every event", "why_tests_cant": "unbounded operation sequences", "anchors": ["crates/ass-editor/events/channel: register_handler, unregister_handler, dispatch"]}
{"id": "C20", "title": "Extension commands always belong to loaded extensions", "statement": "Under any sequence of load, initialize, unload and execute, every registered command belongs to a loaded extension, and unloading removes all of an extension’s commands and data.", "quantifier": "every sequence of operations", "why_tests_cant": "unbounded operation sequences", "anchors": ["crates/ass-editor/extensions/manager_loading.rs"]}
{"id": "C21", "title": "Active subtitle selection", "statement": "For every script and time, the renderer selects exactly the displayable events whose start ≤ t < end, in file order, and reports as newly active/inactive exactly the difference with the previous frame.", "quantifier": "every event list, every time, every sequence of queries", "why_tests_cant": "unbounded event lists and query histories", "anchors": ["crates/ass-renderer/src/renderer/event_selector.rs: select_active", "crates/ass-renderer/src/renderer/time_index.rs"]}
{"id": "C22", "title": "Overlap detection is exact", "statement": "find_overlapping_events reports a pair exactly when the two events’ time intervals intersect, and reports each such pair once.", "quantifier": "every list of events", "why_tests_cant": "unbounded lists with all tie patterns", "anchors": ["crates/ass-core/analysis/events/overlap"]}
{"id": "C23", "title": "Style inheritance is applied", "statement": "When a style names an existing parent style, the resolved style takes unspecified properties from the resolved parent.", "quantifier": "every acyclic style section", "why_tests_cant": "arbitrary inheritance graphs", "anchors": ["crates/ass-core/analysis/styles/analyzer/dependency.rs: build_dependency_order", "crates/ass-core/analysis/styles/analyzer/analysis.rs"]}
{"id": "C24", "title": "Collision resolver separates subtitles", "statement": "The position chosen for an event does not overlap any previously placed event of the same layer, and stays on screen.", "quantifier": "every placement history and every box", "why_tests_cant": "unbounded placement histories", "anchors": ["crates/ass-renderer/src/collision/resolver.rs: find_position"]}
{"id": "C25", "title": "Texture atlas regions are disjoint and in bounds", "statement": "Any sequence of allocations yields pairwise disjoint regions lying inside the atlas.", "quantifier": "every allocation sequence", "why_tests_cant": "unbounded sequences", "anchors": ["crates/ass-renderer/src/utils/caches.rs: TextureAtlas::allocate"]}
{"id": "C26", "title": "Caches are bounded and never wrong", "statement": "A cache lookup returns the value most recently stored under that key or a miss, never a value stored under another key, and the cache never exceeds its capacity.", "quantifier": "every sequence of inserts and lookups", "why_tests_cant": "unbounded operation sequences", "anchors": ["crates/ass-renderer/src/utils/caches.rs: GlyphCache", "crates/ass-renderer/src/cache/mod.rs: RenderCache"]}
{"id": "C27", "title": "Dirty regions cover every change", "statement": "After any sequence of change notifications, every changed pixel lies in some reported dirty region, and merging regions covers both.", "quantifier": "every sequence of rectangles", "why_tests_cant": "unbounded sequences", "anchors": ["crates/ass-renderer/src/renderer/event_selector.rs: add_dirty_region", "crates/ass-renderer/src/utils/regions.rs: DirtyRegion::merge"]}
{"id": "C28", "title": "Frame cache is transparent", "statement": "Rendering through the frame cache yields the same frame as rendering without it.", "quantifier": "every sequence of render and context-change calls", "why_tests_cant": "unbounded call sequences", "anchors": ["crates/ass-renderer/src/renderer/mod.rs: render_frame, set_context"]}
{"id": "C29", "title": "Search finds every occurrence; replace-all replaces them", "statement": "Searching reports exactly the positions where the pattern occurs, in increasing order; find-and-replace yields the text with occurrences substituted.", "quantifier": "every text and pattern", "why_tests_cant": "all texts and self-overlapping patterns", "anchors": ["crates/ass-editor/utils/search/basic_search.rs", "crates/ass-editor/utils/search/trait_impl.rs: find_replace"]}
{"id": "C30", "title": "Tag stripping removes every override block", "statement": "Exported plain text contains no complete {…} block, and stripping twice equals stripping once; text without braces is untouched.", "quantifier": "every text", "why_tests_cant": "nested and unbalanced braces of any depth", "anchors": ["crates/ass-editor/utils/formats/export_srt.rs: strip_ass_tags"]}
{"id": "C31", "title": "SRT timestamps round-trip", "statement": "Converting an ASS time to SRT and importing it back yields the same time.", "quantifier": "every canonical time", "why_tests_cant": "360000*hours combinations", "anchors": ["crates/ass-editor/formats/srt/time.rs", "crates/ass-editor/utils/formats/export_srt.rs: ass_time_to_srt", "crates/ass-editor/utils/formats/import_srt.rs: parse_srt_time"]}
{"id": "C32", "title": "WebVTT timestamps round-trip", "statement": "Converting an ASS time to WebVTT and importing it back yields the same time.", "quantifier": "every canonical time", "why_tests_cant": "360000*hours combinations", "anchors": ["crates/ass-editor/formats/webvtt/time.rs"]}
{"id": "C33", "title": "Dialogue text analysis is total and extracts visible text", "statement": "Analysing any dialogue text terminates normally, and the plain text is the text with override blocks removed and \\N, \\n, \\h escapes expanded.", "quantifier": "every dialogue text", "why_tests_cant": "arbitrary Unicode text with arbitrary brace nesting", "anchors": ["crates/ass-core/analysis/events/text_analysis/parser.rs"]}
{"id": "C34", "title": "Override tags are located where they are", "statement": "Every tag reported by the override parser is a literal substring \\name+args of the block at the reported position, tags are in order and disjoint; no input crashes the parser.", "quantifier": "every override block content", "why_tests_cant": "arbitrary Unicode block content", "anchors": ["crates/ass-core/analysis/events/tags/parser.rs: parse_override_block"]}
{"id": "C35", "title": "Karaoke generation preserves the words", "statement": "Generating karaoke timing splits text into syllables whose concatenation is the original text, and durations are as configured.", "quantifier": "every text", "why_tests_cant": "arbitrary whitespace", "anchors": ["crates/ass-editor/commands/karaoke_commands/generate.rs: split_into_syllables"]}
{"id": "C36", "title": "Timing adjustment keeps events well ordered", "statement": "Shifting event times by any offsets yields events with start < end when they were ordered, and never negative times; toggling an event’s type twice is the identity.", "quantifier": "every event and every offset", "why_tests_cant": "all i32 offsets against all times", "anchors": ["crates/ass-editor/commands/event_commands/timing.rs", "crates/ass-editor/commands/event_commands/toggle.rs"]}
{"id": "C37", "title": "Editing one field preserves the others", "statement": "Editor commands that change one field of an event line leave every other field, in particular the text, as it was.", "quantifier": "every event line", "why_tests_cant": "texts with arbitrary commas and parentheses", "anchors": ["crates/ass-editor/commands/event_commands/helpers.rs: parse_event_line"]}
{"id": "C38", "title": "Script-info set/get", "statement": "After setting a script property, reading it returns the new value and all other properties are unchanged.", "quantifier": "every document and property", "why_tests_cant": "arbitrary documents whose property names share prefixes/suffixes", "anchors": ["crates/ass-editor/commands/script_info_commands"]}
{"id": "C39", "title": "Style commands touch only the named style", "statement": "Deleting, cloning or editing a style affects only the line of the style with exactly that name.", "quantifier": "every document and style name", "why_tests_cant": "names that are prefixes of other names", "anchors": ["crates/ass-editor/commands/style_commands"]}
{"id": "C40", "title": "Streaming is independent of chunking", "statement": "Feeding a file to the streaming parser in any chunking produces the same lines as feeding it at once.", "quantifier": "every text and every way to cut it into chunks", "why_tests_cant": "exponentially many chunkings", "anchors": ["crates/ass-core/parser/streaming: feed_chunk"]}
{"id": "C41", "title": "Atomic batches are all-or-nothing", "statement": "An atomic batch update either applies all of its operations or leaves the script unchanged.", "quantifier": "every script and batch", "why_tests_cant": "all failure points in a batch", "anchors": ["crates/ass-core/parser/script/batch.rs: atomic_batch_update"]}
{"id": "C42", "title": "Validation verdict", "statement": "A validation result is valid exactly when the document has no issue of error severity or worse, independent of reporting limits.", "quantifier": "every issue list and configuration", "why_tests_cant": "all positions of errors relative to the limit", "anchors": ["crates/ass-editor/utils/validator"]}
{"id": "C43", "title": "Pixel blending stays in range and SIMD equals scalar", "statement": "Blending never overflows a channel, keeps premultiplied pixels premultiplied, leaves pixels untouched at zero coverage, replaces them at full opaque coverage, and the vectorised row equals the scalar row.", "quantifier": "all pixel rows, colours and coverages", "why_tests_cant": "rows of any length; 256^5 channel combinations", "anchors": ["crates/ass-renderer/src/backends/coverage/blend.rs"]}
{"id": "C44", "title": "Line wrapping loses no text", "statement": "Wrapping a line yields lines whose concatenation (with one blank per break) is the original line, for every set of font measurements.", "quantifier": "every line, segmentation and font metric", "why_tests_cant": "arbitrary text and metrics", "anchors": ["crates/ass-renderer/src/pipeline/build/wrap.rs: wrap_segments"]}
{"id": "C45", "title": "Animation progress is a clamped monotone function of time", "statement": "Progress is 0 before the start, 1 after the end and never decreases or leaves [0,1].", "quantifier": "all times and intervals", "why_tests_cant": "all u32 triples", "anchors": ["crates/ass-renderer/src/pipeline/transform/mod.rs: calculate_progress"]}
{"id": "C46", "title": "Legacy alignment conversion", "statement": "Both conversions of legacy SSA alignment values agree and map to the numpad value of the SSA specification.", "quantifier": "all alignment values", "why_tests_cant": "two independent implementations must agree on all values", "anchors": ["crates/ass-renderer/src/layout/alignment.rs", "crates/ass-renderer/src/pipeline/positioning/coords.rs"]}
{"id": "C47", "title": "Extension registry behaves as a map", "statement": "Under any sequence of register/remove/clear, processing a tag invokes exactly the handler last successfully registered under that name; duplicate registration is rejected without effect.", "quantifier": "every operation sequence", "why_tests_cant": "unbounded operation sequences", "anchors": ["crates/ass-core/plugin/registry.rs"]}
{"id": "C48", "title": "Complexity scores stay in range", "statement": "Animation score is at most 10 and complexity score at most 100, and both are monotone.", "quantifier": "every tag list", "why_tests_cant": "lists of any length", "anchors": ["crates/ass-core/analysis/events/scoring/calculators.rs"]}
{"id": "C49", "title": "Tag argument validators", "statement": "The colour/alpha/number argument validators accept exactly their documented grammar and never crash.", "quantifier": "every argument string", "why_tests_cant": "all Unicode strings", "anchors": ["crates/ass-core/plugin/tags/color/validation.rs", "crates/ass-core/plugin/tags/position/validation.rs"]}
{"id": "C50", "title": "Timing relation is a symmetric classification", "statement": "timing_relation is symmetric, Identical iff the intervals coincide, NoOverlap iff they are disjoint, FullOverlap iff one contains the other.", "quantifier": "all pairs of intervals", "why_tests_cant": "all orderings of four endpoints", "anchors": ["crates/ass-core/analysis/events/dialogue_info/accessors.rs"]}
{"id": "C51", "title": "Segmenting preserves the visible text", "statement": "The concatenated text of the renderer’s styled segments equals the visible text of the event.", "quantifier": "every dialogue text", "why_tests_cant": "arbitrary text with blocks and escapes", "anchors": ["crates/ass-renderer/src/pipeline/text_segmenter/mod.rs"]}
{"id": "C52", "title": "Animation bookkeeping: tag splitting loses nothing", "statement": "Splitting an override block into tags keeps every character except the separating backslashes.", "quantifier": "every block content", "why_tests_cant": "arbitrary parenthesis nesting", "anchors": ["crates/ass-renderer/src/pipeline/text_segmenter/split.rs"]}
{"id": "C53", "title": "Undo after a command", "statement": "A text command run through the document’s command interface can be undone: undo restores the text from before the command.", "quantifier": "every document, history and insert/delete command", "why_tests_cant": "all texts, positions and histories; the recorded operation is reconstructed from the command result and may not match what happened", "anchors": ["crates/ass-editor/core/document/validation.rs: EditorDocument::execute_command", "crates/ass-editor/core/document/undo_redo.rs: EditorDocument::undo"]}
{"id": "C54", "title": "Session statistics match the sessions that exist", "statement": "After any sequence of session-manager calls, the reported number of active sessions equals the number of sessions that exist.", "quantifier": "all finite call sequences on a fresh session manager, all ids and documents", "why_tests_cant": "the counter is maintained incrementally; drift depends on the whole history of ids", "anchors": ["crates/ass-editor/sessions/lifecycle.rs: create_session_with_document, remove_session", "crates/ass-editor/sessions/access.rs: cleanup_stale_sessions"]}
{"id": "C55", "title": "Dependencies of a loaded extension are loaded", "statement": "After any sequence of extension-manager calls, every dependency named by a loaded extension is itself a loaded extension.", "quantifier": "all finite call sequences on a fresh extension manager, all extensions", "why_tests_cant": "depends on the order of load, initialise and unload calls", "anchors": ["crates/ass-editor/extensions/manager_loading.rs: load_extension, initialize_extension, unload_extension"]}
{"id": "C56", "title": "Commands of an active extension stay available", "statement": "While an extension is active, each command it declares can be executed and reaches that extension.", "quantifier": "all finite call sequences on a fresh extension manager, all extensions and command ids", "why_tests_cant": "depends on which other extensions were loaded and unloaded meanwhile", "anchors": ["crates/ass-editor/extensions/manager_loading.rs: initialize_extension, unload_extension", "crates/ass-editor/extensions/manager_access.rs: execute_command"]}
{"id": "C57", "title": "Extension lifecycle calls return", "statement": "Initialising or unloading an extension always returns, also when the extension uses the services of the context it is given.", "quantifier": "all manager states, all extensions, contexts working on the same or another manager", "why_tests_cant": "a deadlock appears only for the combination of a context on the same manager and an extension that uses it", "anchors": ["crates/ass-editor/extensions/manager_loading.rs: initialize_extension, shutdown_extension", "crates/ass-editor/extensions/context.rs: EditorContext", "crates/ass-editor/extensions/manager.rs: with_inner, with_inner_mut"]}
{"id": "C58", "title": "Circular style inheritance is reported exactly when it exists", "statement": "Analysing a script reports a circular inheritance conflict if and only if some style inherits, directly or through other styles of the script, from itself; the analysis terminates on every style section.", "quantifier": "every list of styles with arbitrary names and parent references (missing parents, duplicates, self references, long cycles)", "why_tests_cant": "The graph is arbitrary; a depth-first search can miss cycles reached through already visited nodes or report false ones for diamonds, and tests only try a handful of shapes.", "anchors": ["crates/ass-core/analysis/styles/analyzer/dependency.rs: has_circular_dependency, dfs_has_cycle, build_dependency_order"]}
{"id": "C59", "title": "Writing one atlas region leaves the others intact", "statement": "Writing pixel data into a region handed out by the texture atlas stores exactly those pixels in it and changes no pixel of any other region.", "quantifier": "every atlas size, region, pixel data and pair of regions", "why_tests_cant": "Row strides, offsets and edges interact for all sizes; tests check one or two placements.", "anchors": ["crates/ass-renderer/src/utils/caches.rs: TextureAtlas::write_region"]}
{"id": "C60", "title": "Cropping a layer keeps every visible pixel", "statement": "When a layer is rendered to a bitmap, the bitmap contains every visible pixel of the layer at its place and is as small as possible; afterwards the scratch surface is completely transparent.", "quantifier": "every pixmap content and every noted bounding box that contains what was drawn", "why_tests_cant": "All pixel patterns and all boxes, including ones partly off screen.", "anchors": ["crates/ass-renderer/src/backends/software/dirty.rs: crop_pixmap, clear_region, note_dirty_bbox"]}
{"id": "C61", "title": "Incremental rendering equals full rendering", "statement": "Rendering a frame incrementally from a previous frame yields the same pixels as rendering the frame from scratch.", "quantifier": "every script, every pair of times, every previous frame", "why_tests_cant": "All pairs of times and all sets of events starting and ending in between.", "anchors": ["crates/ass-renderer/src/renderer/mod.rs: render_frame_incremental", "crates/ass-renderer/src/pipeline/build/run.rs: compute_dirty_regions", "crates/ass-renderer/src/backends/software/mod.rs: composite_layers_incremental"]}
{"id": "C62", "title": "Rendering does not depend on earlier scripts", "statement": "The frame rendered for a script at a time depends only on the script, the time and the context the user set, not on which scripts the renderer was used for before.", "quantifier": "every pair of scripts and every render history", "why_tests_cant": "State left behind by arbitrary previous scripts.", "anchors": ["crates/ass-renderer/src/renderer/mod.rs: render_frame", "crates/ass-renderer/src/renderer/context.rs: set_playback_resolution"]}
{"id": "C63", "title": "Exported subtitles import back unchanged", "statement": "Exporting a document to SRT or WebVTT and importing the file gives back every dialogue event, in order, with the same start, end and text (line breaks and bold, italic, underline included).", "quantifier": "every document whose event times are canonical", "why_tests_cant": "any number of events and lines, any mix of tags and line breaks", "anchors": ["crates/ass-editor/utils/formats/export_srt.rs: export_srt", "crates/ass-editor/utils/formats/import_srt.rs: parse_srt_entries", "crates/ass-editor/utils/formats/export_webvtt.rs: export_webvtt", "crates/ass-editor/utils/formats/import_webvtt.rs: parse_webvtt_cues"]}
{"id": "C64", "title": "Karaoke adjustment changes only durations", "statement": "Scaling, offsetting, setting or replacing karaoke durations changes each timing tag of the text as asked, in order, and nothing else; it never crashes.", "quantifier": "every text and every adjustment", "why_tests_cant": "any number of blocks, tags per block and durations", "anchors": ["crates/ass-editor/commands/karaoke_commands/adjust_impl.rs: adjust_karaoke_timing, adjust_karaoke_tags_with_registry"]}
{"id": "C65", "title": "Deleting events removes exactly their lines", "statement": "Deleting one or several events by index removes exactly the lines of those events and nothing else; an index without an event changes nothing; deletion never crashes.", "quantifier": "every document and every list of indices", "why_tests_cant": "any number of lines, positions and index lists with repetitions", "anchors": ["crates/ass-editor/commands/event_commands/delete.rs", "crates/ass-editor/commands/event_commands/batch_delete.rs"]}
{"id": "C66", "title": "Merging and splitting events", "statement": "Merging two events gives one event with the fields of the first, the end of the second and both texts, and leaves every other event; splitting an event at a time inside it gives two events that meet at that time with all other fields unchanged; any other time is refused without effect.", "quantifier": "every document, event, separator and time", "why_tests_cant": "any number of events, any text", "anchors": ["crates/ass-editor/commands/event_commands/merge.rs", "crates/ass-editor/commands/event_commands/split.rs"]}
{"id": "C67", "title": "Creating a style adds one style line", "statement": "Creating a style adds exactly one style line after the format line of the styles section and changes nothing else; if there is no styles section, one is created before the events section or at the end; a name already in use is refused.", "quantifier": "every document and style line", "why_tests_cant": "arbitrary layouts of the styles section", "anchors": ["crates/ass-editor/commands/style_commands/create.rs"]}
{"id": "C68", "title": "Applying a style to events", "statement": "Replacing one style by another in the events changes exactly the style field of the events that use it (and satisfy the filter), for all of them, and leaves every other byte.", "quantifier": "every document and pair of style names", "why_tests_cant": "any number of events, names of any lengths, texts that contain the name", "anchors": ["crates/ass-editor/commands/style_commands/apply.rs"]}
{"id": "C69", "title": "Registered handlers do not change which tags are found", "statement": "Parsing an override block with a registry of tag handlers finds the same tags, at the same positions with the same arguments, as parsing it without; handlers can only add one MalformedTag diagnostic for each tag they fail on.", "quantifier": "every registry of handlers and every override block", "why_tests_cant": "arbitrary handlers and block contents; the two parsers are separate copies of the same loop", "anchors": ["crates/ass-core/analysis/events/tags/registry_parser.rs", "crates/ass-core/analysis/events/tags/parser.rs"]}
{"id": "C70", "title": "Events in a time range", "statement": "find_events_in_range returns exactly the indices of the events shown at some instant of the range, in order.", "quantifier": "every list of analysed events and every range", "why_tests_cant": "all positions of ranges relative to events, including empty ranges", "anchors": ["crates/ass-core/analysis/events/utils/ordering.rs find_events_in_range", "crates/ass-core/analysis/events/dialogue_info/accessors.rs overlaps_time_range"]}
{"id": "C71", "title": "Durations", "statement": "The duration of an event, the total duration (shortest span containing all events) and the average duration are computed correctly and without panicking for all analysed events.", "quantifier": "every list of analysed events", "why_tests_cant": "32-bit overflow needs extreme but accepted times; min/max over arbitrary lists", "anchors": ["crates/ass-core/analysis/events/utils/duration.rs", "crates/ass-core/analysis/events/dialogue_info/accessors.rs"]}
{"id": "C72", "title": "Sorting events by time", "statement": "sort_events_by_time rearranges the events by start, then end; events with equal times keep their relative order.", "quantifier": "every list of analysed events", "why_tests_cant": "arbitrary lists with ties", "anchors": ["crates/ass-core/analysis/events/utils/ordering.rs sort_events_by_time"]}
{"id": "C73", "title": "The place given for a parsed event or style is its line", "statement": "The byte span reported for a parsed event or style is exactly its line in the source (without the blanks before it), and that line reads as the event or style.", "quantifier": "every source text, every section, every event or style parsed from it", "why_tests_cant": "offsets accumulate over everything before: byte order mark, multi-byte characters, blank lines, comments, unknown sections in any arrangement", "anchors": ["crates/ass-core/parser/position_tracker/tracker.rs", "crates/ass-core/parser/sections/events/parser.rs", "crates/ass-core/parser/sections/styles/parser.rs", "crates/ass-core/parser/main/parse.rs"]}
{"id": "C74", "title": "Line numbers of parsed things", "statement": "The line number reported for a parsed event, style, font, graphic or script info section is the number of the line where it begins.", "quantifier": "every source text and everything parsed from it", "why_tests_cant": "the count depends on every line skipped anywhere before; blank lines, comments and unknown sections may occur anywhere", "anchors": ["crates/ass-core/parser/position_tracker/tracker.rs", "crates/ass-core/parser/main/helpers.rs skip_whitespace_and_comments", "crates/ass-core/parser/main/section.rs"]}
{"id": "C75", "title": "Writing a parsed script and parsing it again", "statement": "Serialising a parsed script to text and parsing the result yields the same sections: script properties, styles, events, fonts and graphics.", "quantifier": "every source text", "why_tests_cant": "all combinations of sections, formats, field contents and embedded data", "anchors": ["crates/ass-core/parser/script/serialize.rs to_ass_string", "crates/ass-core/parser/main/parse.rs", "crates/ass-core/parser/ast"]}
{"id": "C76", "title": "Embedded files survive being added, parsed and decoded", "statement": "After adding a font or graphic from its bytes, parsing the document finds it under its name and decoding its data yields the same bytes.", "quantifier": "every document, file name and byte string", "why_tests_cant": "depends on the length of the data and on which characters the encoder produces at the beginning of lines", "anchors": ["crates/ass-editor/commands/fonts_graphics_commands/add.rs", "crates/ass-editor/commands/fonts_graphics_commands/encoding.rs", "crates/ass-core/parser/binary_data", "crates/ass-core/parser/ast/media/font.rs decode_data"]}
{"id": "C77", "title": "Listing, adding, removing and clearing embedded files", "statement": "Adding a file appends its name to the list; removing a file removes exactly its entry; clearing empties the list and leaves the rest of the document unchanged.", "quantifier": "every document and file name", "why_tests_cant": "section boundaries and entries are found by text search; all arrangements of sections and names matter", "anchors": ["crates/ass-editor/commands/fonts_graphics_commands/{add,remove,list,clear}.rs", "crates/ass-editor/core/fluent/media.rs: FontsOps::exists, count, GraphicsOps::exists, count"]}
{"id": "C78", "title": "Compositing a tile changes exactly the pixels it covers", "statement": "Drawing a coverage tile in a colour, or a premultiplied bitmap, at any position onto a frame of the stated size changes exactly the frame pixels that lie under the tile, each to the source over what was there; parts of the tile outside the frame are left out, no other pixel changes, no channel overflows and the call returns.", "quantifier": "all frame and tile sizes, all frame and tile contents, all colours, all positions including off-frame ones, with and without vector instructions", "why_tests_cant": "The clipping arithmetic has to be right for every combination of size and position, and for every pixel; sampled positions leave overflow and wrap-around to the next row undetected.", "anchors": ["crates/ass-renderer/src/backends/coverage/composite.rs: composite, composite_bitmap, composite_coverage, composite_rgba", "crates/ass-renderer/src/backends/coverage/blend.rs: blend_row"]}
{"id": "C79", "title": "Transforms are understood as written", "statement": "The arguments of a \\t tag — optional begin and end times, optional acceleration, and a list of tags with values — are parsed to exactly these times, this acceleration and these target values.", "quantifier": "all begin and end times, accelerations, lists of animatable tags, values and spellings of the values", "why_tests_cant": "The grammar is unbounded and the meaning of the numbers depends on how many there are; sampled transforms do not show which spelling is silently dropped or reinterpreted.", "anchors": ["crates/ass-renderer/src/pipeline/transform/mod.rs: TransformAnimation::parse", "crates/ass-renderer/src/pipeline/transform/parse.rs: parse_animatable_tags, create_animatable_tag"]}
{"id": "C80", "title": "A running transform interpolates from the value in force to its target", "statement": "Applying the transforms of an event at a time leaves everything unchanged before a transform begins, sets its targets once it is over, and in between sets each animated property to the corresponding part of the way from the value in force (override or style) to the target, never outside of the two, without touching other properties.", "quantifier": "all lists of transforms, all states, all styles, all times", "why_tests_cant": "Properties, states and times combine without bound, and the value before the transform may come from an override or from the style.", "anchors": ["crates/ass-renderer/src/pipeline/build/animation.rs: apply_transform_animations", "crates/ass-renderer/src/pipeline/transform/mod.rs: interpolate_f32, interpolate_color, interpolate_alpha"]}
{"id": "C81", "title": "Tags in force on a segment", "statement": "Each known override tag sets its own attribute and no other; of several tags for one attribute the last before a stretch of text decides; unknown tags have no effect; a reset returns to the named style, or the line’s own, without moving the event.", "quantifier": "every dialogue text, every sequence of blocks and tags", "why_tests_cant": "arbitrarily many tags in any order and combination", "anchors": ["crates/ass-renderer/src/pipeline/text_segmenter/apply.rs", "crates/ass-renderer/src/pipeline/text_segmenter/mod.rs", "crates/ass-renderer/src/pipeline/tag_processor/parse.rs"]}
{"id": "C82", "title": "Lint rules report exactly the faults they are for", "statement": "Linting a script reports: an error for each event whose readable times do not give a positive duration, an error for each event whose style is not defined, an error for each colour that cannot be read, a warning for each pair of events shown at the same time, and a warning for control and replacement characters in texts. Nothing else is reported by these rules, comment lines are not checked as if they were shown, and linting never crashes.", "quantifier": "all scripts: any lists of styles and events with any texts and times", "why_tests_cant": "Exactness is a statement about all scripts, in both directions; tests only show single faults found and single clean scripts accepted.", "anchors": ["crates/ass-core/analysis/linting/rules/negative_duration.rs", "crates/ass-core/analysis/linting/rules/missing_style/rule.rs", "crates/ass-core/analysis/linting/rules/invalid_color/rule.rs", "crates/ass-core/analysis/linting/rules/timing_overlap.rs", "crates/ass-core/analysis/linting/rules/encoding/rule.rs", "crates/ass-core/analysis/linting/rules/accessibility/rule.rs"]}
{"id": "C83", "title": "Lint configuration selects from the full report", "statement": "Whatever the configuration, linting reports exactly those issues of the full report that come from rules which are to run and are at least as severe as asked, in the same order; with a limit n, the first n of these.", "quantifier": "all scripts and all lint configurations (severity, limit, lists of enabled and disabled rules)", "why_tests_cant": "The four settings combine in unboundedly many ways with unboundedly many reports.", "anchors": ["crates/ass-core/analysis/linting/runner.rs::lint_script_with_analysis", "crates/ass-core/analysis/linting/config.rs::is_rule_enabled"]}
{"id": "C84", "title": "Streaming: the current section", "statement": "After any lines have been processed one by one, the processor's current section is that of the last section header, its line number is the number of lines, and its lists of fields are those of the last Format lines of the section.", "quantifier": "all sequences of lines", "why_tests_cant": "The state depends on the whole history of lines.", "anchors": ["crates/ass-core/parser/streaming/processor/line_processor.rs::LineProcessor::process_line", "crates/ass-core/parser/streaming/processor/section_lines.rs"]}
{"id": "C85", "title": "Wrapped lines fit", "statement": "When a line is wrapped to a width, its words are put on lines in order; no line of more than one word is wider than the width; without balancing, a word only moves to the next line if it would not have fitted; with balancing there are no more lines than without.", "quantifier": "all texts, fonts (any measure of words, spacing and scale) and widths", "why_tests_cant": "Texts and fonts are unlimited, and the balanced limit comes out of a search.", "anchors": ["crates/ass-renderer/src/pipeline/build/wrap.rs::wrap_segments"]}
{"id": "C86", "title": "Updating a line at an offset changes exactly that line", "statement": "Updating the line at a byte offset of a parsed script replaces the style, event or field at that offset by what the new line says, returns what was there, and changes nothing else; a failed update changes nothing. A batch of updates is the updates one after the other in the order of the offsets, with every offset reported once. Added styles and events are put at the end of the section of their kind, and the positions returned are theirs.", "quantifier": "every script, offset, line and line number; every batch", "why_tests_cant": "the section and the line are found by searching spans, which depend on everything parsed before and on all earlier updates", "anchors": ["crates/ass-core/parser/script/update.rs: update_line_at_offset", "crates/ass-core/parser/script/auto.rs: parse_line_auto", "crates/ass-core/parser/script/batch.rs: batch_update_lines, batch_add_styles, batch_add_events", "crates/ass-core/parser/script/mutate.rs: add_style, add_event"]}
{"id": "C87", "title": "Change tracking records every change", "statement": "While change tracking is enabled every change of a script is recorded once, in order, with what was there and what is there now; while it is disabled nothing is recorded.", "quantifier": "every script, every call that changes it", "why_tests_cant": "each operation has its own recording code; a gap shows only for the combinations tried", "anchors": ["crates/ass-core/parser/script/types.rs: ChangeTracker", "crates/ass-core/parser/script/update.rs", "crates/ass-core/parser/script/mutate.rs", "crates/ass-core/parser/script/batch.rs"]}
{"id": "C88", "title": "The difference of two scripts leads from one to the other", "statement": "The list of changes between two scripts is empty exactly if their sections are equal, and carrying out the changes in order turns the sections of the other script into those of this one.", "quantifier": "every pair of scripts", "why_tests_cant": "the indices have to be right for every pair of section lists", "anchors": ["crates/ass-core/parser/script/tracking.rs: diff"]}
{"id": "C89", "title": "A delta says exactly what changed between two parses", "statement": "The delta from an old to a new script, carried out on the sections of the old one, gives sections that say the same as those of the new one; it is empty exactly if both say the same and there is no new issue.", "quantifier": "every pair of scripts", "why_tests_cant": "sections are matched by type and compared field by field; all arrangements of sections matter", "anchors": ["crates/ass-core/parser/script/delta.rs: calculate_delta, ScriptDelta::is_empty", "crates/ass-core/parser/script/delta_eq.rs"]}
{"id": "C90", "title": "Parsing what changed gives what a full parse gives", "statement": "Parsing a changed source incrementally, from the script parsed before and the change, gives the same script as parsing the new source: the same section contents, the same version, the same issues, and places that denote the right text in the new source.", "quantifier": "all sources, all parsed scripts and all text changes", "why_tests_cant": "The result depends on how the change lies to every section and on the header texts in the whole source; tests try a few edits.", "anchors": ["crates/ass-core/parser/script/incremental.rs: parse_incremental, affected_sections", "crates/ass-core/parser/script/partial.rs: adjust_section_spans"]}
{"id": "C91", "title": "Ranges follow edits", "statement": "For an edit that replaces a range of the source by a text: the new source is the old one with the text replaced; a range before or after the edit denotes the same text as before; a range overlapping it denotes what stands before, the new text and what stands after; line numbers and line ranges count the line feeds.", "quantifier": "all sources, all edits at character boundaries, all ranges", "why_tests_cant": "The relative position of range and edit, byte sizes of characters and shrinking or growing replacement give many cases.", "anchors": ["crates/ass-core/parser/incremental/range_adjust.rs: adjust_range_for_change", "crates/ass-core/parser/incremental/line_calc.rs: calculate_line_range, calculate_line_number", "crates/ass-core/parser/streaming/source.rs: build_modified_source"]}
{"id": "C92", "title": "Tokens are what they say and where they say", "statement": "Every token returned by the tokenizer is the text that stands at its place in the source, looks as its type says (a header begins with a bracket and ends before the closing one, an override block ends before its matching brace, a comment ends with its line, numbers are made of digits, …), and its line and column are those of its first character.", "quantifier": "all sources, all calls, with and without the feature simd", "why_tests_cant": "Types depend on a context carried along from the whole text before; line counting depends on every line end before the token.", "anchors": ["crates/ass-core/tokenizer/next_token.rs: next_token", "crates/ass-core/tokenizer/scanner/navigator.rs: advance_char", "crates/ass-core/tokenizer/scanner/text_scanner.rs: scan_text"]}
{"id": "C93", "title": "Accelerated scanning agrees with plain scanning", "statement": "The vectorised scans give what the plain loops give: the first delimiter, the value of a hexadecimal number, the validity of UTF-8 bytes and the position of an error, and the same sequence of tokens.", "quantifier": "all texts and byte sequences of every length", "why_tests_cant": "The results depend on how characters fall into 16-byte chunks; tests try a few lengths.", "anchors": ["crates/ass-core/tokenizer/simd/delimiters.rs: scan_delimiters", "crates/ass-core/tokenizer/simd/hex.rs: parse_hex_u32", "crates/ass-core/tokenizer/simd/utf8.rs: validate_utf8_batch", "crates/ass-core/tokenizer/scanner/text_scanner.rs: scan_text"]}
{"id": "C94", "title": "Encoding checks tell the truth", "statement": "Bytes are accepted as UTF-8 exactly if they encode a text, and the position in the error is the end of the longest valid beginning; recovery keeps every character and replaces every stretch of other bytes by one U+FFFD, and counts these; texts are accepted exactly if they have no control characters besides tabs and line ends; the detected encoding of bytes without a mark is UTF-8 exactly for valid ones; a text is not refused for its first character.", "quantifier": "all byte sequences and all texts", "why_tests_cant": "Byte sequences can be broken at any place and in any way; tests try a few.", "anchors": ["crates/ass-core/utils/utf8/validation/validate.rs: validate_utf8, is_valid_ass_text", "crates/ass-core/utils/utf8/validation/recovery.rs: recover_utf8", "crates/ass-core/utils/errors/encoding/validation.rs: validate_ass_text_content, validate_bom_handling", "crates/ass-core/utils/utf8/encoding/detection.rs: detect_encoding"]}
{"id": "C95", "title": "Tag commands change exactly the tags they name", "statement": "Inserting a tag puts exactly that tag, in braces when asked, at its place; wrapping puts an opening tag in front of and the matching closing tag behind the range; removing tags with a name removes exactly those tags and leaves all other tags and all text; replacing changes all, or only the first, matching tags; listing reports every tag with its arguments and its place. The reported range ends behind the new text, and a command that fails leaves the document as it was.", "quantifier": "all documents, ranges, positions, tags, patterns, replacements and options", "why_tests_cant": "Blocks, nesting, tags with common prefixes, multi-byte text and unclosed braces combine without bound; the unit tests use single tags in ASCII texts.", "anchors": ["crates/ass-editor/commands/tag_commands/insert.rs: InsertTagCommand::execute, format_tag", "crates/ass-editor/commands/tag_commands/remove.rs: RemoveTagCommand::execute, remove_tags_from_text, process_override_content", "crates/ass-editor/commands/tag_commands/replace.rs: ReplaceTagCommand::execute, replace_tags_in_text", "crates/ass-editor/commands/tag_commands/wrap.rs: WrapTagCommand::execute, get_closing_tag", "crates/ass-editor/commands/tag_commands/parse.rs: ParseTagCommand::parse_tags_from_text"]}
{"id": "C96", "title": "Event queries return exactly the matching events in the requested order", "statement": "A query on the events of a document returns each event that meets all conditions of its filter (type, style, speaker, text, effect, layer, time range) exactly once and no other event, ordered by the first criterion, ties by the second and then by place in the script, reversed by the criteria when descending, cut at the limit; indices, count and first result agree with that; line number and range say where the event is.", "quantifier": "all scripts, filters, sort options and limits", "why_tests_cant": "Combinations of filters, criteria and malformed or extreme times are unbounded; the unit tests check a handful of scripts of a few events.", "anchors": ["crates/ass-editor/core/fluent/event_query_exec.rs: EventQuery::execute, indices, first, count", "crates/ass-editor/core/fluent/event_query_filter.rs: matches_filter, compare_by_criteria, parse_time_to_cs", "crates/ass-editor/core/fluent/event_query.rs: EventQuery", "crates/ass-editor/core/fluent/query_types.rs: EventFilter, EventSortOptions"]}
{"id": "C97", "title": "Built lines mean what was given to the builder", "statement": "The line an event or style builder gives reads back, with the same field list, as the event or style with exactly the given values, and the documented defaults for the others; field lists that are empty or have unknown names are refused.", "quantifier": "all builders (any fields set to any values), all field lists and script versions", "why_tests_cant": "The values and field lists are arbitrary; unit tests look for substrings in a few built lines and never read them back.", "anchors": ["crates/ass-editor/core/builders/event_build.rs: EventBuilder::build, build_with_version, build_with_format", "crates/ass-editor/core/builders/style_build.rs: StyleBuilder::build, build_with_version", "crates/ass-editor/core/builders/style_format.rs: StyleBuilder::build_with_format", "crates/ass-core/parser/sections/events/static_parser.rs: parse_event_line", "crates/ass-core/parser/sections/styles/parse_line.rs: parse_style_line"]}
{"id": "C98", "title": "Section deltas change the sections they name and can be undone", "statement": "Applying a section delta to a document removes the sections it names, gives the modified sections their new text, puts the added ones at the end and leaves the rest of the text as it is; when it fails the document is as before; undo takes the whole delta back.", "quantifier": "all documents, histories and deltas", "why_tests_cant": "Documents repeat sections, name headers in comments, use old style sections or have a long edit history; unit tests apply one small delta to one tidy document.", "anchors": ["crates/ass-editor/core/document/delta_apply.rs: apply_script_delta, apply_script_delta_internal, find_section_start, find_section_end", "crates/ass-editor/core/document/delta_undo.rs: capture_delta_undo_data", "crates/ass-editor/core/history/manager.rs: record_operation", "crates/ass-editor/commands/command_result.rs: CommandResult::success"]}
{"id": "C99", "title": "Subtitles survive the SRT and WebVTT formats of the registry", "statement": "Importing an SRT or WebVTT file through the format registry gives a script with one Dialogue event per subtitle, in order, with its times and its formatted lines; exporting writes every Dialogue event as a numbered subtitle; exporting and importing again keeps times and texts; malformed input gives warnings, never a crash.", "quantifier": "all SRT and WebVTT files; all lists of events; all texts, times, numbers of blank lines, ends of lines", "why_tests_cant": "Files vary in blank lines, numbering, line ends, notes, cue names, settings and nested tags without bound; unit tests convert a few two-subtitle samples and look for substrings.", "anchors": ["crates/ass-editor/formats/srt/import.rs: parse_srt_subtitle, import_from_reader", "crates/ass-editor/formats/srt/export.rs: export_to_writer", "crates/ass-editor/formats/srt/styling.rs", "crates/ass-editor/formats/webvtt/cue.rs: parse_vtt_cue, parse_cue_settings, cue_settings_to_ass_positioning", "crates/ass-editor/formats/webvtt/importer.rs", "crates/ass-editor/formats/webvtt/exporter.rs", "crates/ass-editor/formats/webvtt/styling.rs"]}
{"id": "C100", "title": "The style analyzer resolves, scales and checks every style", "statement": "For every style of a script the analyzer gives the properties the style line says, taking what is empty from the parent where one is named, scaled from the layout resolution to the play resolution; it reports missing parents, circular inheritance and duplicate names exactly where they are, and styles whose properties are out of range.", "quantifier": "all scripts, style lists (any names, parents, fields), resolutions and configurations", "why_tests_cant": "22 fields each with their own rule for empty, default and unreadable texts, two vertical margin formats, and any number of styles of the same name; tests fix one style or two.", "anchors": ["crates/ass-core/analysis/styles/resolved_style/from_style.rs: from_style", "crates/ass-core/analysis/styles/resolved_style/inheritance.rs: from_style_with_parent", "crates/ass-core/analysis/styles/resolved_style/scaling.rs: apply_resolution_scaling, calculate_complexity", "crates/ass-core/analysis/styles/analyzer/analysis.rs", "crates/ass-core/analysis/styles/analyzer/checks.rs", "crates/ass-core/analysis/styles/analyzer/dependency.rs", "crates/ass-core/analysis/styles/analyzer/accessors.rs: validate_styles"]}
{"id": "C101", "title": "Drawings are drawn as written and placed where they belong", "statement": "The commands of a drawing (m, n, l, b, s, p, c) with their coordinates become exactly the moves, lines, curves and splines they say, in order, whatever the spacing and the case of the letters; splines pass smoothly through their points; and the drawing is placed with the point its alignment names at its position, scaled to the frame, or moving with time along its movement.", "quantifier": "all drawing texts, numbers of commands and points, alignments, positions, movements and times", "why_tests_cant": "Command lists of any length, mixed in any order, with implicit repetitions, any spacing; and a continuous range of times and positions.", "anchors": ["crates/ass-renderer/src/pipeline/drawing/mod.rs: process_drawing_commands", "crates/ass-renderer/src/pipeline/drawing/parse.rs: parse_draw_commands, tokenize_drawing_commands", "crates/ass-renderer/src/pipeline/drawing/spline.rs: spline_to_bezier", "crates/ass-renderer/src/pipeline/build/drawing.rs", "crates/ass-renderer/src/pipeline/animation.rs: calculate_move_progress"]}
{"id": "C102", "title": "Syntax highlighting marks what stands in the document", "statement": "The tokens of a document are the parts of its lines that have a meaning (section headers, comments, field names and values, event types, times, style names, braces, tag names and parameters, text, unclosed blocks), each with the byte range where it stands; the ranges lie between characters and follow each other without overlap; a token limit keeps a prefix; and the tokens returned are those of the current text.", "quantifier": "all documents, configurations, cache contents and documents cached before", "why_tests_cant": "Documents of any size with any mixture of multi-byte characters, nested and unclosed blocks; a wrong offset shows only after particular earlier lines.", "anchors": ["crates/ass-editor/extensions/builtin/syntax_highlight/document.rs: tokenize_document", "crates/ass-editor/extensions/builtin/syntax_highlight/events.rs: tokenize_event_line", "crates/ass-editor/extensions/builtin/syntax_highlight/tags.rs: tokenize_text_with_tags, tokenize_tag_content", "crates/ass-editor/extensions/builtin/syntax_highlight/sections.rs: tokenize_info_line, tokenize_format_line, tokenize_style_line", "crates/ass-editor/extensions/builtin/syntax_highlight/extension.rs: clear_cache, invalidate_document"]}
{"id": "C103", "title": "Auto-completion offers what fits at the cursor", "statement": "For every cursor position in a document, a completion request answers (without failing) with the entries that fit there: section headers on an empty line or after a bracket, the fields of the section the cursor is in, override tags that begin with what is typed inside a block, and the script's style names in the style field of an event; sorted by rank, no more than configured, and all of them if there is room.", "quantifier": "all documents, cursor positions, configurations and sets of styles", "why_tests_cant": "The context depends on everything above the cursor and on what is typed in its line, for texts of any length with any characters.", "anchors": ["crates/ass-editor/extensions/builtin/auto_complete/context.rs: get_completion_context, should_complete_style", "crates/ass-editor/extensions/builtin/auto_complete/completions.rs: get_section_completions, get_field_completions, get_style_completions", "crates/ass-editor/extensions/builtin/auto_complete/tags.rs: get_tag_completions", "crates/ass-editor/extensions/builtin/auto_complete/extension.rs: get_completions, update_style_names"]}
{"id": "C104", "title": "Lines of text stand where alignment, margins and position say", "statement": "A line that is not pinned stands in the frame at the place its alignment names (number pad), between the margins in force; several lines form a block of equal line distances that stands there as a whole; the runs of a line follow one another; and a line pinned by a position or a movement stands with its aligned corner at that point of the frame, at every time.", "quantifier": "all frame and script sizes, styles, margins, alignments, positions, movements, times, and lists of lines with runs of any measures", "why_tests_cant": "Positions depend on eleven numbers and the number of lines and runs; a wrong anchor shows only for particular combinations of row, column and line count.", "anchors": ["crates/ass-renderer/src/pipeline/build/position.rs: calculate_position_from_tags, calculate_position_from_alignment, apply_alignment_offset, margin_or_style", "crates/ass-renderer/src/pipeline/build/text/position.rs: position_segment", "crates/ass-renderer/src/pipeline/build/text/mod.rs: process_text_segments", "crates/ass-renderer/src/pipeline/build/text/defaults.rs: default_alignment"]}
{"id": "C105", "title": "Text is painted in the colours of its tags or style, as opaque as alpha and fade say", "statement": "Every run of text is filled, outlined and shaded in the colour of the last colour tag for that part, or else of its style; how opaque each part is comes from its alpha tag or the style, times the share its fade shows at that time (a short fade rises from the start and falls to the end, a long fade moves through three values at four times).", "quantifier": "all styles, all sets of tags in force, all event times, fades and moments", "why_tests_cant": "The opacity is a function of up to nine numbers and the time, with boundaries between the phases.", "anchors": ["crates/ass-renderer/src/pipeline/build/text/colors.rs: resolve_run_colors", "crates/ass-renderer/src/pipeline/build/style.rs: parse_ass_color", "crates/ass-renderer/src/pipeline/build/text/defaults.rs: resolve_text_defaults"]}
{"id": "C106", "title": "Text gets exactly the effects its tags and style ask for", "statement": "Bold, italics, underline, strike-out, outline or box, shadow, blur, rotation, shearing, stretching and clipping are applied to a run of text exactly when the tags in force, or else its style, ask for them, with the lengths given there in units of the script converted to the frame, and none of them twice.", "quantifier": "all styles, all sets of tags in force, all frame and script sizes, borders scaled or not", "why_tests_cant": "Each of thirteen effects depends on several tags, the style and the scales; the combinations are unbounded.", "anchors": ["crates/ass-renderer/src/pipeline/build/text/effects.rs: push_text_effects", "crates/ass-renderer/src/pipeline/build/text/defaults.rs: resolve_text_defaults"]}
{"id": "C107", "title": "Lines keep all text with its tags, and karaoke syllables follow one another", "statement": "The lines of an event hold exactly its characters in order, each with the tags in force there, cut at the line breaks; and each karaoke syllable is sung after all syllables before it in the event, for as long as its tag says, in the colours of tag or style.", "quantifier": "all segmented texts, all durations, event times and moments", "why_tests_cant": "Any number of lines, segments and syllables; progress accumulates over all of them.", "anchors": ["crates/ass-renderer/src/pipeline/build/text/colors.rs: split_into_logical_lines", "crates/ass-renderer/src/pipeline/build/text/mod.rs: process_text_segments"]}
{"id": "C108", "title": "Subtitles shown at the same time are stacked", "statement": "When a frame is rendered, the layers of all active events come out lower layers first, within a layer by start time, otherwise in file order. An event is moved vertically as a whole or not at all: never if its text contains \\pos or \\move, and only away from the edge its alignment belongs to; without need it stays. Two unpositioned events of one layer end up at least three pixels apart unless the later touches the top or bottom of the screen. Positioned events do not push others. Stacking takes place on the frame being rendered.", "quantifier": "every list of events, every result of drawing each of them, every set of styles, every frame size", "why_tests_cant": "Stacking depends on all events placed before; tests place two boxes. The order, the apartness and the absence of needless moves must hold for every number of events, overlap pattern and frame size.", "anchors": ["crates/ass-renderer/src/pipeline/build/run.rs: SoftwarePipeline::process_events", "crates/ass-renderer/src/pipeline/build/position.rs: event_is_positioned, effective_alignment, event_bounding_box, offset_layers_y", "crates/ass-renderer/src/pipeline/build/mod.rs: SoftwarePipeline::new", "crates/ass-renderer/src/collision/resolver.rs: CollisionResolver::find_position"]}
{"id": "C109", "title": "What the search indexes find", "statement": "Searching a document through a search index finds every word of the indexed text that matches the query and lies in the wanted lines, sections or range, reports each once with its line, column and context, stops at the given number of results, and reports the place in the document where the query stands, so that replacing the results replaces the occurrences of the query and nothing else. This is to hold of the automaton-based index and of the simple index used without it.", "quantifier": "every document text, query, scope, limit and case setting, every classification of word characters and every lower-case mapping, every iteration order of the hash map", "why_tests_cant": "Tests look up single words at the beginning of one-line documents. Which words are found, that none is reported twice and that places are true offsets must hold for all texts, line endings and queries.", "anchors": ["crates/ass-editor/utils/indexing/fst_build.rs: FstSearchIndex::extract_words, build_fst", "crates/ass-editor/utils/indexing/fst_search.rs: FstSearchIndex::build_index, search, find_replace", "crates/ass-editor/utils/indexing/fst.rs: matches_scope", "crates/ass-editor/utils/indexing/linear.rs: LinearSearchIndex::build_index, search, find_replace"]}
{"id": "C110", "title": "Searching part of a document, and with regular expressions", "statement": "A search limited to a range, to lines or to sections reports exactly the matches lying in that part of the document, in order, up to the limit, each with its place in the whole document, its text, line, column and line of context; whole-word searches report whole words only. The same holds of searches with regular expressions. Replacing the results puts the replacement in place of every match and leaves everything else as it is.", "quantifier": "every text, part, query, replacement and limit, every regular expression (as a finder of stretches of the text), every case folding that keeps lengths", "why_tests_cant": "Off-by-one errors at the first line, the last empty line and behind the end of the text only show for particular parts; tests search whole documents.", "anchors": ["crates/ass-editor/utils/search/basic.rs: DocumentSearchImpl::basic_search", "crates/ass-editor/utils/search/regex_search.rs: DocumentSearchImpl::regex_search", "crates/ass-editor/utils/search/trait_impl.rs: DocumentSearchImpl::find_replace"]}
{"id": "C111", "title": "The word index follows the edits", "statement": "After the document has been edited and the changed ranges have been given to the index, searching the index gives the same results as building it anew from the edited document, and updating never stops the program.", "quantifier": "every text before and after, every list of changed ranges, every classification of word characters", "why_tests_cant": "The update estimates how far later words have moved and rereads windows of fixed size; whether the estimate is right depends on lengths, line ends and character sizes around each change.", "anchors": ["crates/ass-editor/utils/search/incremental.rs: DocumentSearchImpl::update_index_impl", "crates/ass-editor/utils/search/trait_impl.rs: build_index, update_index", "crates/ass-editor/utils/search/index.rs: extract_words"]}
{"id": "C112", "title": "A document shared between threads behaves as if its operations were carried out one after another", "statement": "When threads share a document, the results of their operations and the document are those of carrying the operations out one after another in an order that respects each thread's own order and what finished before what began; nobody sees a half-made change; while one thread changes the document no other reads or changes it; nobody waits for ever and every operation ends; after an operation has panicked while changing the document all later ones are refused; commands carried out this way can be undone; every document put into a pool is found under its id.", "quantifier": "every number of threads, every list of operations for each, every schedule", "why_tests_cant": "The number of interleavings is unbounded, and tests on one machine run only few of them.", "anchors": ["crates/ass-editor/core/thread_safety/sync_document.rs: SyncDocument::{read,write,execute_command,with_read,with_write,validate}", "crates/ass-editor/core/thread_safety/scoped_lock.rs: ScopedDocumentLock", "crates/ass-editor/core/thread_safety/document_pool.rs: DocumentPool::{add_document,get_document,remove_document}", "crates/ass-editor/core/document/constructors.rs: generate_id"]}
{"id": "C113", "title": "Batches of commands", "statement": "A batch carries out its commands in order and reports success, the range that was changed and the last cursor; a batch inside a batch is the same as its commands; a command that fails ends the batch, and then none of its commands takes effect; one undo takes back the whole batch, and likewise any command carried out on a document.", "quantifier": "every text, every list of commands (including commands of other crates), every description, every history", "why_tests_cant": "Whether a failing batch leaves traces and whether undo restores the text depends on the positions and order of the commands and on words in the description.", "anchors": ["crates/ass-editor/commands/batch_command.rs: BatchCommand::execute", "crates/ass-editor/core/document/validation.rs: EditorDocument::execute_command", "crates/ass-editor/commands/text_commands.rs: InsertTextCommand, DeleteTextCommand, ReplaceTextCommand", "crates/ass-editor/commands/fluent_builder.rs: TextCommand, DocumentCommandExt"]}
{"id": "C114", "title": "Blurring softens without losing or inventing anything", "statement": "Blurring a picture keeps its size; a pixel depends only on pixels at most three times the strength away; its opacity lies between the least and the greatest around it; areas of one opaque colour and transparent areas stay as they are; more opacity in never gives less out; mirrored pictures give mirrored results; where everything shown has one colour the colour is kept up to rounding; and when enough room is left around a shape the result is the same on a canvas of any size. The temporary picture in which blurred text or a blurred drawing is made leaves that room, the box kept for cropping covers it, and the blurred picture is again one with colours multiplied by alpha.", "quantifier": "all pictures, positions and strengths, all positive symmetric kernels, all sizes of text and bounds of drawings, canvases of any size", "why_tests_cant": "A test blurs a few pictures and compares bytes; that the padding suffices and nothing leaks holds for every picture, strength and size.", "anchors": ["crates/ass-renderer/src/backends/blur.rs: apply_gaussian_blur", "crates/ass-renderer/src/backends/software/text/blur.rs: draw_blurred_text", "crates/ass-renderer/src/backends/software/vector.rs: draw_vector_layer", "crates/ass-renderer/src/backends/software/dirty.rs: text_vector_dirty_bbox"]}
{"id": "C115", "title": "Painting text: cached shapes, karaoke and decorations", "statement": "What is painted for a line of text does not depend on what was painted before: cached shapes are used only where they are what would be drawn anew, and the caches stay bounded. Underlining a text changes nothing but adding a line along it. A syllable not yet sung has the secondary colour and one that is over the primary colour, on top of outline and shadow; in between, more of it is sung as time goes on, and the part shown is exactly the left part of the shape.", "quantifier": "all sequences of layers with any effects, all fonts, outlines and rasterisers, all progress values, sizes and colours", "why_tests_cant": "A test paints a few layers with new caches; a stale or mistaken cache entry shows only after a history of other layers, and the two ways of painting differ only for some combinations of effects.", "anchors": ["crates/ass-renderer/src/backends/software/text/mod.rs: draw_text_layer", "crates/ass-renderer/src/backends/software/text/prepare.rs", "crates/ass-renderer/src/backends/software/text/coverage.rs", "crates/ass-renderer/src/backends/software/text/blur.rs: draw_blurred_text", "crates/ass-renderer/src/backends/software/text/decorations.rs: draw_text_decorations", "crates/ass-renderer/src/backends/software/text/fills.rs: draw_karaoke_text", "crates/ass-renderer/src/backends/software/cache/mod.rs: coverage_key, RunCoverageKey, BlurTileKey"]}
{"id": "C116", "title": "Turning, stretching, slanting and tilting text", "statement": "Text turned in the plane or out of it keeps the given origin, or else its middle, where it is; turning in the plane keeps all distances and goes counter-clockwise; stretching gives the asked width about the middle without changing heights; slanting keeps the middle; tilting shows what is farther away smaller and keeps straight lines straight; on a larger canvas everything is shown enlarged. Products of transforms do one after the other; blended transforms lie between the two; easing curves run from 0 to 1 without turning back.", "quantifier": "all layers with any effects, all points of the text, all angles, origins, scales and canvas sizes", "why_tests_cant": "Tests compare a few angles and points; fixed points, distances and straight lines concern all of them.", "anchors": ["crates/ass-renderer/src/backends/software/text/prepare.rs", "crates/ass-renderer/src/backends/geometry.rs: project_path_3d", "crates/ass-renderer/src/utils/math.rs: Matrix3x3, Transform2D, lerp, cubic_bezier"]}
{"id": "C117", "title": "Editing events and properties through the document", "statement": "Editing an event of a document by its number changes exactly that event: one line of the text changes, and when the document is read again the event has the fields set and everything else is said as before. The same holds when the event is edited with a builder, which starts out as that very event and is written by the field list of the document. Setting a property changes exactly that property. Edits that cannot be done are refused and leave the document as it was. The numbers of events, styles and sections, the texts found and the properties read are those of what the document says.", "quantifier": "all documents, event numbers, edits of fields, functions on builders, property names and values", "why_tests_cant": "Tests edit an event or two of small usual documents; that nothing else changes, and that the right line is found, concerns all documents.", "anchors": ["crates/ass-editor/core/document/ass_api.rs", "crates/ass-editor/core/document/event_edit.rs: edit_event_by_index", "crates/ass-editor/core/document/event_line.rs", "crates/ass-editor/core/document/builder_edit.rs: edit_event_with_builder", "crates/ass-editor/core/document/validation.rs: parse_script_with"]}
{"id": "C118", "title": "Incremental edits of a document", "statement": "An incremental edit of a document puts the new text in the place of the old and leaves the rest alone; it reports the sections that say something else afterwards and no others; a range beyond the text is refused without any change; editing an event by its text changes its first occurrence or is refused. Undo after an incremental edit gives the text as it was before, and redo the text as it was after it, whatever was edited before.", "quantifier": "all documents with any history and any state of the incremental parser, all ranges and texts, all sequences of edits", "why_tests_cant": "The state of the parser depends on the whole history of edits, on which of them were short, and on how many bytes they changed; tests make one or two edits and look at the text, not at undo, redo or what a later edit does.", "anchors": ["crates/ass-editor/core/document/incremental_edit.rs: edit_incremental, insert_incremental, delete_incremental", "crates/ass-editor/core/document/incremental_fast.rs: edit_fast_path", "crates/ass-editor/core/document/incremental_parse.rs: edit_safe, edit_event_incremental", "crates/ass-editor/core/incremental/apply.rs: apply_change", "crates/ass-editor/core/incremental/reparse.rs: full_reparse, update_cached_script", "crates/ass-editor/core/document/delta_undo.rs: capture_delta_undo_data, extract_section_text", "crates/ass-editor/core/document/delta_sections.rs: insert_section_at, replace_section, remove_last_section", "crates/ass-editor/core/document/undo_redo.rs: undo, redo", "crates/ass-core/parser/script/partial.rs: parse_partial"]}
{"id": "C119", "title": "Layout helpers put text where its tags and margins say", "statement": "The layout helpers put the alignment point of a text at the point given by \\pos or on the path of \\move at the right moment, and otherwise at the place its alignment and the margins give; \\org is the point of rotation; scaling takes the script's canvas to the screen; several lines are laid out in order, evenly spaced, inside the width and height reported.", "quantifier": "all alignments, boxes, margins, screen sizes, positions, movements and moments, and all texts", "why_tests_cant": "The helpers are formulas over many real parameters with nine alignments; tests check one alignment with one box and one moment of one movement.", "anchors": ["crates/ass-renderer/src/layout/positioning/info.rs: PositionInfo::calculate, calculate_with_movement", "crates/ass-renderer/src/layout/positioning/coords.rs: scale_coordinates", "crates/ass-renderer/src/layout/context.rs: LayoutContext::calculate_position, apply_play_res_scaling", "crates/ass-renderer/src/layout/multiline.rs: MultiLineLayout::new"]}
{"id": "C120", "title": "Reading all tags of an event at once", "statement": "Reading all tags of an event's text gives each attribute the value of the last tag that sets it and no other, the same as cutting the text into styled segments does; the text given back is the visible text, and the line breaks and hard spaces listed are exactly the ones in it.", "quantifier": "all event texts with closed blocks of any tags, any number of blocks and any text around them", "why_tests_cant": "There are about fifty tags whose names are prefixes of each other, with their own argument forms, in any order and number; two interpreters must agree on all of them, and tests look at single tags.", "anchors": ["crates/ass-renderer/src/pipeline/tag_processor/mod.rs: process_event_tags, process_single_tag", "crates/ass-renderer/src/pipeline/tag_processor/parse.rs", "crates/ass-renderer/src/pipeline/text_segmenter/apply.rs: process_tag_block"]}
{"id": "C121", "title": "Animation tracks", "statement": "An animation track has its first value until it starts and its last value from its end on; in between, for every curve and acceleration, the share of the way that is covered never falls and stays between nothing and all, and every number, position and colour channel is at that share; at every moment the state of a controller gives for each property the value of the last track added for it and nothing for other properties; the controller is active exactly while an animation is under way, and while it is not active the state does not change; and adding a transform tag keeps the existing tracks and adds one track per documented modifier with the moments counted from the start of the event. This fails where whole numbers are far apart (crash), where two animations of one property follow each other (the first is never seen), where an animation ends before it begins, where an event ends before it begins (crash), and for modifiers as scripts write them, which are dropped, misread or crash.", "quantifier": "every track, curve, acceleration, moment, list of tracks, modifier text and event time", "why_tests_cant": "The course of a curve is a statement about all pairs of moments, and which track governs a property depends on the whole history of added tracks.", "anchors": ["crates/ass-renderer/src/animation/timing.rs: AnimationTiming::progress", "crates/ass-renderer/src/animation/track.rs: AnimationTrack::evaluate", "crates/ass-renderer/src/animation/value.rs: AnimatedValue::interpolate", "crates/ass-renderer/src/animation/state.rs: AnimationState", "crates/ass-renderer/src/animation/controller.rs: AnimationController"]}
{"id": "C122", "title": "Session memory pool", "statement": "In every history of allocations, accesses, resets and collections the reported memory in use is never overstated and never above the reported peak; after every cleaning call the report agrees with the arenas; the main arena is wiped exactly when the count of resets goes up; and between two resets there are fewer accesses than the threshold. A strategy by count or time cleans exactly when it is due, and the manual strategy never does. This fails where memory is allocated between calls (not noticed, not in the peak, and not in the amount said to be reclaimed), where the combined strategy collects for ever without resetting its count, where the manual strategy is chosen and the arena is wiped all the same, and where pressure that cannot be relieved wipes the arena at every access.", "quantifier": "every history of operations on a pool, every configuration, every behaviour of the arenas on reset and every moment", "why_tests_cant": "The counters and figures depend on the whole history; the faults only show after a thousand operations or under memory pressure.", "anchors": ["crates/ass-editor/sessions/memory/pool.rs: MemoryPool", "crates/ass-editor/sessions/memory/gc.rs: collect_garbage, check_reset_conditions, update_memory_stats", "crates/ass-editor/sessions/memory/strategy.rs: SmartArenaManager::evaluate_reset_strategy"]}
{"id": "C123", "title": "Line breaks and line counts of a text", "statement": "Every text is made of characters, hard and soft breaks, hard spaces and other backslash pairs; the shown text has each replaced in order, each break and each hard space is found at exactly the byte where it stands in the shown text, with its kind, and at no other; in drawings they are dropped; the shown text agrees with the plain text of the analysis; and the number of lines is one more than the number of line ends. This fails for a backslash at the end and for override blocks (the two disagree), for texts that end with a line end (counts that jump), for right-to-left scripts that are not listed, and for the mark of complex Unicode, which every text with a line break gets.", "quantifier": "every text, every sequence of pieces and every byte position", "why_tests_cant": "Positions depend on the byte lengths of all characters before; tests cover a few ASCII texts.", "anchors": ["crates/ass-core/analysis/events/line_breaks.rs: TextWithLineBreaks::from_text, get_break_type_at, is_nbsp_at", "crates/ass-core/analysis/events/text_analysis/helpers.rs: count_lines, detect_bidi_text, detect_complex_unicode", "crates/ass-core/analysis/events/text_analysis/parser.rs: analyze_impl_with_registry"]}
{"id": "C124", "title": "Fluent event operations reach the events they name", "statement": "Reading an event by number gives that event of the parsed document, its getters the parts of it, exists and count agree with it; deleting the events that meet a condition (all, by type, style, text or times) leaves the same script without exactly those events; scaling durations multiplies them. This fails with events of other types than dialogue and comment, lines with blanks in front, missing field lists, [Events] in a title (the wrong lines are deleted or none), the place reported for an event is always line 1, and scaling adds the same amount to every duration.", "quantifier": "all documents, event numbers, filters, scripts that can be written down with one section of events, factors", "why_tests_cant": "Deletion by a condition joins a full parse, a query and a textual search that count events separately; that the two counts agree has to be shown for every script, and the cases where they do not are rare mixtures of lines.", "anchors": ["crates/ass-editor/core/fluent/event_ops.rs:EventOps::get,EventOps::count", "crates/ass-editor/core/fluent/event_accessor.rs:EventAccessor", "crates/ass-editor/core/fluent/event_deleter.rs:EventDeleter", "crates/ass-editor/core/fluent/event_merge_timing.rs:EventTimer::scale_duration", "crates/ass-editor/commands/event_commands/timing.rs:TimingAdjustCommand::scale_duration"]}
{"id": "C125", "title": "Typed script properties read what was set, and agree with the parsed script", "statement": "Setting the title, the author, the resolution, the wrapping style or the scaling of borders through the fluent script-info operations and reading it back gives what was set. On a script as the library writes it, the editor reads each property as the parsed script has it, and after setting a property the parsed script has the new value while every other property and section is as before.", "quantifier": "every document with an information section (every script the library can write, for the agreement with the parser), every title, author, property name and value, every resolution of 32-bit numbers, every wrapping style", "why_tests_cant": "The editor finds properties by searching text and the parser by splitting lines; whether the two agree depends on every other line of the section.", "anchors": ["crates/ass-editor/core/fluent/script_info.rs: ScriptInfoOps::{title,author,resolution,get_resolution,wrap_style,get_wrap_style,scaled_border_and_shadow}", "crates/ass-core/parser/ast/script_info/info.rs: ScriptInfo::{get_field,title,play_resolution,wrap_style}"]}
{"id": "C126", "title": "The font chosen for a text", "statement": "A text is drawn with the font requested whenever that font has all its characters, whatever other fonts are installed. Otherwise the font chosen is one of the database and shows at least as many characters of the text as the requested one, as many as any font of the database if the text has no East Asian characters, and as many as any curated font if it has. Only without any font is there an error.", "quantifier": "every font database (faces, lookups by family, weight and slant, glyph coverage), every family name, weight, slant and text", "why_tests_cant": "Which fonts are installed, and which characters each covers, is the machine's; a test sees one set of fonts.", "anchors": ["crates/ass-renderer/src/pipeline/shaping/font_select.rs: find_font, find_font_for_text, font_support_count, text_has_cjk_or_hangul"]}
{"id": "C127", "title": "Shaped text, and the caches of shaping and outlines", "statement": "The glyphs of a shaped text stand where the advances before them end, its width is the sum of the advances, its ink reaches exactly from the leftmost to the rightmost extent of its glyphs, and its height is that of the font. Shaping through the cache and drawing outlines through the glyph cache give what shaping and drawing anew would give, whatever was shaped and drawn before, and the cache of shaped texts stays bounded.", "quantifier": "every font, every list of glyphs the shaper gives, every size and spacing, every history of calls", "why_tests_cant": "Caches go wrong only after particular histories, and with keys that two different requests share.", "anchors": ["crates/ass-renderer/src/pipeline/shaping/shape.rs: shape_text_with_style, shape_text_cached", "crates/ass-renderer/src/pipeline/shaping/font_metrics.rs: FontMetrics", "crates/ass-renderer/src/pipeline/shaping/glyph_renderer.rs: GlyphRenderer::render_shaped_text", "crates/ass-renderer/src/pipeline/shaping/mod.rs: ShapedText::total_advance"]}
{"id": "C128", "title": "The picture the GPU compositor gives", "statement": "Composing bitmaps on the graphics device gives, whatever was composed before and whatever the device left in its buffers, the bytes of the bitmaps drawn one over the other on a transparent frame, every bitmap at its own place; a layer kept on the device stays as drawn until it is drawn again, and presenting shows it over the background. Each channel differs from the software backend's by at most two per bitmap. Composing the same sizes again uses the textures there are.", "quantifier": "every list of bitmaps of usual sizes and places, every frame size up to the device's limit, every rounding of positions to 24 bits, every history of calls, every padding byte", "why_tests_cant": "Needs a graphics device; errors of pooled textures and reused buffers show only after particular histories, rounding errors only for particular sizes and places.", "anchors": ["crates/ass-renderer/src/backends/gpu/compositor/mod.rs: Compositor::composite, render_layer, present_over, present_to_view, layer_to_bytes", "crates/ass-renderer/src/backends/gpu/pool.rs: TilePool, describe, tile_rect", "crates/ass-renderer/src/backends/gpu/readback.rs: Readback", "crates/ass-renderer/src/backends/gpu/shader.rs"]}
{"id": "C129", "title": "The coverage of an outline in each pixel", "statement": "The byte the rasterizer gives a pixel is 255 times the area that closed contours cover in it, counted with the direction of the contours, to the nearest whole number and not more than 255; pixels that no edge enters are full or empty by the winding number, whatever the contours are. No edges make it panic.", "quantifier": "every bitmap size, every list of closed contours with corners anywhere between the sides of the bitmap and at any height, every pixel; for panics every list of edges", "why_tests_cant": "The deposits have separate formulas for one, two and more columns and depend on where within a pixel an edge enters and leaves; errors are of single bytes for particular slopes.", "anchors": ["crates/ass-renderer/src/backends/raster/mod.rs: Rasterizer::new, line, finish", "crates/ass-renderer/src/backends/raster/span.rs: convert_span"]}
{"id": "C130", "title": "The tile of an outline and where it goes", "statement": "Rasterizing an outline gives a bitmap and a place such that, drawn there, every pixel of the frame has the coverage of the outline: straight lines as they are, curves replaced by chords within a fifth of a pixel (three fifths for cubic curves), every contour closed. The bitmap has one free pixel at least at each side, and nothing of the outline is outside it.", "quantifier": "every outline of lines, quadratic and cubic curves and closings within a thousand million pixels of the frame's corner, every pixel in and outside the tile", "why_tests_cant": "How many chords a curve gets depends on its control points; a chord too few or a contour left open is visible only as a small difference somewhere.", "anchors": ["crates/ass-renderer/src/backends/coverage/mod.rs: CoverageTile::rasterize", "crates/ass-renderer/src/backends/raster/mod.rs: Rasterizer::quad, cubic"]}
{"id": "C131", "title": "Edits at a position and over a selection", "statement": "Through the fluent interface, inserting at a position changes nothing but that place; deleting forward or backward removes exactly the text asked for; replacing up to the end of the line leaves the line break and all other lines; wrapping puts the tags around the selected text; indenting and unindenting change exactly the lines that the selection touches, by the given number of spaces; out-of-range positions are refused with an error; undo takes such an edit back.", "quantifier": "every document text with any mix of line breaks and multi-byte characters, every position and selection, every text, tag and number", "why_tests_cant": "Line breaks of several kinds, multi-byte characters and offsets that shift while several lines are edited combine without limit; the tests use short ASCII texts.", "anchors": ["crates/ass-editor/core/fluent/position.rs: AtPosition", "crates/ass-editor/core/fluent/selection.rs: SelectRange", "crates/ass-editor/core/fluent/document_ext.rs: EditorDocument::at_line"]}
{"id": "C132", "title": "A frame as a list of bitmaps", "statement": "The list of bitmaps for a frame shows, layer by layer and in order, exactly what each layer paints; compositing the list gives the frame that is rendered at once; neither what was rendered before nor a call that failed changes what is shown.", "quantifier": "every sequence of layers of text, drawings and pictures, every frame size, every state left by earlier calls", "why_tests_cant": "The scratch picture and two thread-local variables carry over from layer to layer and from call to call; the tests render single frames that do not fail.", "anchors": ["crates/ass-renderer/src/backends/software/mod.rs: render_to_bitmaps, composite_layers, composite_layer, resize", "crates/ass-renderer/src/backends/software/cache/blur_tile.rs: composite_cached, blur_tile_hit", "crates/ass-renderer/src/backends/software/vector.rs: draw_vector_layer"]}
{"id": "C133", "title": "Sections unknown to the library and the processors of extensions", "statement": "Registering section processors never changes what a script parses to: sections, version, formats and the other issues stay the same. Each section the library does not know, and no other, is given once and in order to the processor registered under its name, with its lines, and its result is reported; without a processor a misspelt section gets the suggestion its lines call for.", "quantifier": "every source, every registry of processors whatever they do", "why_tests_cant": "processors are arbitrary functions and the order and lines they see depend on every line of the source", "anchors": ["crates/ass-core/parser/main/section.rs", "crates/ass-core/parser/main/registry.rs", "crates/ass-core/parser/main/helpers.rs", "crates/ass-core/plugin/registry.rs", "crates/ass-core/plugin/sections/aegisub/processors.rs", "ScriptBuilder::with_registry"]}
{"id": "C134", "title": "Clips, and the colours and borders of drawings", "statement": "A rectangular clip shows exactly the pixels whose centre lies in it, whichever corners are given, and its inverse exactly the others; a drawing cut into strips with a clip each looks as if drawn at once; a drawing has the colour, opacity and border its tags ask for, else its style's.", "quantifier": "every rectangle, frame, number and place of cuts, shape and content of the frame; every combination of tags and style", "why_tests_cant": "cuts may fall anywhere within a pixel and the picture is built from any number of overlapping draws", "anchors": ["crates/ass-renderer/src/backends/software/vector.rs", "crates/ass-renderer/src/backends/software/text/prepare.rs", "crates/ass-renderer/src/pipeline/build/drawing.rs"]}
{"id": "C135", "title": "Finding sections by kind or by offset", "statement": "After parsing, the section found at the offset of any field, style, event or embedded file is the section that holds it; a section is found at an offset exactly if the offset lies between the beginning of its first and the end of its last entry; the range of a kind of section and the list of all ranges say exactly this; and each range lies in the text between the section's header line and the next header.", "quantifier": "every source and every byte offset", "why_tests_cant": "offsets depend on every byte before them, on line ends, multi-byte characters, unknown sections and comments", "anchors": ["crates/ass-core/parser/script/lookup.rs", "crates/ass-core/parser/script/container.rs", "Script::section_at_offset", "Script::section_range", "Script::section_boundaries"]}
{"id": "C136", "title": "Where the debug player is", "statement": "While playing, the position is where playing began plus the time gone by at the speed set, however often the player is polled; at the end it stops there or begins again; seeking, stepping and stopping go where they say; the position never passes the end and the speed never leaves its bounds; changing the speed and pausing keep the position; the end is the greatest end of an event.", "quantifier": "every history of commands and readings of the clock, every script", "why_tests_cant": "the position depends on the whole history of commands and on when the player happens to be polled", "anchors": ["crates/ass-renderer/src/debug/player/mod.rs", "crates/ass-renderer/src/debug/player/playback.rs", "crates/ass-renderer/src/debug/player/render.rs", "DebugPlayer"]}
{"id": "C137", "title": "The frames the debug player shows and reports", "statement": "A frame shown is the rendering of the script loaded last at the player's position and is labelled with it; asked again the player shows the same frame; the cache never holds more frames than allowed; the report of an automatic test lists the times asked for in order, says for each whether something is visible, and counts them.", "quantifier": "every history of commands, every script and renderer, every list of times", "why_tests_cant": "a stale frame shows only after particular histories of seeking, loading and cache settings", "anchors": ["crates/ass-renderer/src/debug/player/render.rs", "crates/ass-renderer/src/debug/player/testing.rs", "crates/ass-renderer/src/debug/player/report.rs"]}
{"id": "C138", "title": "What the frame analyzer reports", "statement": "The regions reported for a frame are exactly its groups of visible pixels joined side by side that have more than ten pixels, each once, with their bounding box, number of pixels and average colour; the histogram counts every pixel of every value and the classes of visible pixels; the report gives the number of pixels, of visible ones and the transparent part; the dominant value of a channel is its most frequent one; text areas are exactly the regions of the stated shape and brightness.", "quantifier": "every frame of every size and content", "why_tests_cant": "a flood fill meets arbitrarily shaped, nested and touching regions; tests try a few rectangles", "anchors": ["crates/ass-renderer/src/debug/analyzer/mod.rs", "crates/ass-renderer/src/debug/analyzer/report.rs", "FrameAnalyzer::analyze"]}
{"id": "C139", "title": "What the frame inspector shows", "statement": "The pixel shown at a position is the frame's there, and none outside; the cursor always stays in the frame; moving it goes the steps given and stops at the edges; a rectangle gives exactly its pixels with their number, colours and average; the bounds are the least box around the visible pixels; scanning a line cuts its visible pixels into stretches of near colours with their average colour.", "quantifier": "every frame, every history of cursor commands, every rectangle and line", "why_tests_cant": "off-by-one errors at the edges of frames, rectangles and stretches show only for particular sizes and contents", "anchors": ["crates/ass-renderer/src/debug/inspector/mod.rs", "crates/ass-renderer/src/debug/inspector/info.rs", "FrameInspector"]}
{"id": "C140", "title": "The analysis of a whole script", "statement": "Analysing a script gives one entry for every event of the first [Events] section with readable times, an end after its start and a text that can be taken apart, in order; the performance summary counts these entries, the pairs of them shown together at some instant, those with tags of more than three points, and the style names with a font above 72; the score is 100 less fixed deductions for these counts, lies between 50 and 100, and never rises when a script has more of anything; advice is given exactly if a bound is exceeded, and always if there are performance issues; resolve_style gives the resolved style of the last readable definition; and the lint issues are the full lint report.", "quantifier": "all parsed scripts (any sections, events, styles), all style names, all pairs of scripts (for the order of scores)", "why_tests_cant": "The counts come out of a sweep over all events and a fold over all styles; that they equal the number of meeting pairs, or of names, has to hold for every script, and the bounds of the score for every combination of counts.", "anchors": ["crates/ass-core/analysis/construction.rs: analyze_impl, run_linting, analyze_events", "crates/ass-core/analysis/queries.rs: resolve_style, has_critical_issues, performance_summary, calculate_performance_score", "crates/ass-core/analysis/mod.rs: PerformanceSummary", "crates/ass-core/analysis/events/utils/overlaps.rs: count_overlapping_dialogue_events"]}
{"id": "C141", "title": "Cleaning up texts", "statement": "Normalising the white space of a text changes no character but white space other than line feeds and tabulators, each of which becomes a blank; with collapsing no two blanks are left side by side and nothing but surplus blanks goes; doing it again changes nothing. Removing control characters keeps exactly the characters that are no control characters, tabulators, line feeds and carriage returns, in order. Trimming lines gives the lines of the text, each without white space around it, joined with line feeds.", "quantifier": "all texts, with and without collapsing", "why_tests_cant": "The result is described for every text and every position of it, including texts of odd white space and runs of any length.", "anchors": ["crates/ass-core/utils/utf8/normalization/whitespace.rs: normalize_whitespace, trim_lines", "crates/ass-core/utils/utf8/normalization/control.rs: remove_control_chars"]}
{"id": "C142", "title": "Checks of names, colours, sizes and pieces of a source", "statement": "A name is accepted exactly if it is not empty and has no comma, colon, brace or control character other than a tabulator. A colour is accepted exactly if, apart from white space around it, it is &H or &h followed by six or eight hexadecimal digits and perhaps &, or a decimal number of 32 bits; accepted colours are readable. A size check passes exactly if the size (or the sum, without overflow) is within the limit. For a piece of the source the offset, line and column reported are the bytes, line feeds and characters before it; pieces outside the source are refused.", "quantifier": "all names, colour texts, sizes and limits, all sources and pieces of them at any address", "why_tests_cant": "The checks are stated as equivalences over all texts and numbers, including sums that overflow and pieces anywhere in sources with characters of several bytes.", "anchors": ["crates/ass-core/utils/fields.rs: validate_ass_name", "crates/ass-core/utils/errors/format.rs: validate_color_format", "crates/ass-core/utils/errors/resource.rs: check_memory_limit, check_input_size_limit, check_depth_limit", "crates/ass-core/utils/spans.rs: Spans"]}
{"id": "C143", "title": "Frames are values", "statement": "Whatever a program does with frames — making them, copying them, giving a copy another time, writing to their data, converting them to RGBA, dropping them — each shows what it would show if no two frames shared a buffer: writing to or converting one never changes another. Conversion keeps every pixel; the buffer taken from a frame is the data it showed; actions fail only for an index outside the data or a size of 4 GiB or more; a frame with alpha channel is called empty exactly if all its pixels are transparent; rows lie one stride apart.", "quantifier": "all histories of actions on any number of frames, of all sizes, formats and contents", "why_tests_cant": "Buffers are shared behind the scenes and copied only when written; that this is never visible has to hold for every interleaving of copies, writes and drops.", "anchors": ["crates/ass-renderer/src/renderer/frame.rs: Frame, PixelFormat"]}
{"id": "C144", "title": "Blending of two colours, and the choice of a backend", "statement": "Blending a colour over another gives, in each channel, a value between the two, less than one from the exact mean weighted by alpha, and never darker for brighter colours; a transparent colour changes nothing, an opaque one replaces what is below; the alpha is at least either alpha. Compositing layers shows them. Probing gives the first backend of the order of preference that is built in and can be made, and fails exactly if there is none; the backends called available can be used.", "quantifier": "all pairs of colours, all lists of layers, all orders of preference, builds and backends that can or cannot be made", "why_tests_cant": "The rounding of the integer formula has to be right for all 2^24 combinations of two channels and an alpha; the choice for every order and every pattern of failures.", "anchors": ["crates/ass-renderer/src/pipeline/compositing/mod.rs: alpha_blend, composite_layers", "crates/ass-renderer/src/renderer/probing.rs: BackendProber", "crates/ass-renderer/src/backends/mod.rs: create_backend"]}
{"id": "C145", "title": "Commands that edit incrementally", "statement": "A command that inserts, replaces or edits an event incrementally puts the new text exactly where it was asked to and leaves the rest alone, reports the range of the new text, its end as the cursor, and a change; a place outside the document is refused without a change; a batch does its commands one after the other and gives one result for each.", "quantifier": "all documents with whatever the parser keeps of them, all places, texts and lists of commands", "why_tests_cant": "Each command first edits incrementally and falls back to a plain edit; that the two together do the edit exactly once has to hold for every state of the parser.", "anchors": ["crates/ass-editor/commands/delta_commands/insert.rs: IncrementalInsertCommand", "crates/ass-editor/commands/delta_commands/replace.rs: IncrementalReplaceCommand", "crates/ass-editor/commands/delta_commands/event_edit.rs: IncrementalEventEditCommand", "crates/ass-editor/commands/delta_commands/batch.rs: DeltaBatchCommand"]}
{"id": "C146", "title": "Converting files from and to other formats", "statement": "A file is read in the format named by its extension, whatever letters are capitals, and otherwise in the one its contents show; written in the format asked for, else the one of the extension, else as ASS. A document exported to SRT or WebVTT and imported again, with or without naming the format, is a script with a title, one style and exactly the dialogues of the document, in order, with their times and texts. A plain text becomes a script with one dialogue holding its lines, and exporting writes the lines of all dialogues; there and back gives the same file. Exporting to SSA changes the script type and the header of the styles and nothing else.", "quantifier": "all documents, files, paths and texts (those the formats can carry)", "why_tests_cant": "Conversion goes through detection, export, import and the parser of scripts; that nothing is lost over the whole chain has to hold for every document.", "anchors": ["crates/ass-editor/utils/formats/types.rs: SubtitleFormat", "crates/ass-editor/utils/formats/converter.rs: FormatConverter", "crates/ass-editor/utils/formats/file_io.rs", "crates/ass-editor/utils/formats/plain_text.rs", "crates/ass-editor/utils/formats/export_srt.rs: export_ssa"]}
{"id": "C147", "title": "The registry of formats", "statement": "An importer or exporter is found for an extension exactly if one that is registered (the latest under its name) lists it, capitals or not; combined formats go before others; with one lister the result does not depend on the order of the hash map. The extensions reported are those listed, each once, sorted, and exactly those that can be used. Reading and writing files use the one found, and refuse others leaving the file alone. Importing ASS keeps the text and reports its lines, sections, title and type.", "quantifier": "all histories of registrations, all orders in which hash maps give their values, all extensions and files", "why_tests_cant": "The order of a hash map differs from run to run; a test sees one of them.", "anchors": ["crates/ass-editor/formats/registry.rs: FormatRegistry", "crates/ass-editor/formats/traits.rs: FormatImporter, FormatExporter", "crates/ass-editor/formats/ass/format.rs: AssFormat"]}
{"id": "C148", "title": "Generated scripts can be parsed and hold what was asked for", "statement": "A script produced by the script generator, of any title, number of styles and events and level of complexity, can be parsed: it has the properties, styles and events asked for, every event shows its own number, with the times counted up, and refers to a style of the script; the colours of styles can be read. The script with problems has the empty and unknown tags and the heavy animations at their places; in the script with overlaps each event lasts into the next two.", "quantifier": "all titles, numbers of styles and events and levels of complexity", "why_tests_cant": "The text of each event depends on its number through six to nine patterns and the times through three counters; a test parses a few sizes.", "anchors": ["crates/ass-core/utils/benchmark_generators/generator.rs: ScriptGenerator", "crates/ass-core/utils/benchmark_generators/script_sections.rs: generate", "crates/ass-core/utils/benchmark_generators/dialogue.rs: generate_dialogue_text", "crates/ass-core/utils/benchmark_generators/scripts.rs: generate_script_with_issues, generate_overlapping_script"]}
{"id": "C149", "title": "Comparing two pictures, and the reference picture", "statement": "The comparison of two pictures lists exactly the pixels that differ by more than ten on average, in reading order with both colours, counts them, and gives the largest and the average difference; two pictures are reported as equal if and only if they are. The picture of a comparison shows both pictures and the map of differences side by side. The reference picture composed of bitmaps changes, for each bitmap, exactly the pixels it covers, and mixes colours by their strength.", "quantifier": "all pairs of pictures; all lists of bitmaps, wherever they lie", "why_tests_cant": "Pictures are arbitrary arrays of bytes and may have different sizes; mixing depends on four bytes at once, and the values that go wrong are rare.", "anchors": ["crates/ass-renderer/src/debug/visual_comparison/mod.rs: compare_with_libass", "crates/ass-renderer/src/debug/visual_comparison/util.rs: create_comparison_image", "crates/ass-renderer/src/debug/libass/mod.rs: composite_image, over"]}
{"id": "C150", "title": "What the debug renderer and the colour diagnostic report", "statement": "Rendering a frame for inspection returns the frame as drawn together with a report that gives the exact number of visible pixels, the smallest box around them, the size in bytes and a checksum; every successful call adds one report to the history, in order, and comparing two reports says exactly how they differ. The colour diagnostic reports for every style the four bytes and the name of its primary colour, and whether any event changes colours.", "quantifier": "all frames, renderers and sequences of calls; all scripts; all colours of six or eight digits", "why_tests_cant": "A frame is an arbitrary array of bytes, the history depends on any earlier calls and failures, and there are four thousand million colours.", "anchors": ["crates/ass-renderer/src/debug/mod.rs: DebugRenderer", "crates/ass-renderer/src/debug/info.rs: FrameDebugInfo, FrameComparison", "crates/ass-renderer/src/debug/color_diagnostic.rs: ColorDiagnostic"]}
{"id": "C151", "title": "What a benchmark measures and reports", "statement": "A benchmark measures the middle of the first event with text, calls the renderer as often as asked for after warming up, and reports the exact average, smallest, largest, spread and frames per second of these calls, one result for each resolution in order; results are stored only if every resolution succeeds. An animation is measured every four hundredths of a second from the earliest start to the latest end within the asked duration. The summary names the fastest and the slowest test and gives the averages.", "quantifier": "all scripts, configurations, renderers (with any times or failures) and lists of stored results", "why_tests_cant": "Measured times differ from run to run, so a test cannot fix them; failures may come at any call, and events may have any times.", "anchors": ["crates/ass-renderer/src/debug/benchmarking/mod.rs: PerformanceBenchmark, quick_benchmark", "crates/ass-renderer/src/debug/benchmarking/animation.rs: benchmark_animation_framerate", "crates/ass-renderer/src/debug/benchmarking/report.rs: generate_performance_report"]}
{"id": "C152", "title": "What the renderer takes from a script", "statement": "Preparing a script for rendering takes the play resolution, the layout resolution, the wrapping and the treatment of borders from the last script information section that gives them, keeps for every name the last style with this name, brings it from the layout to the play resolution, and takes as default the last style named Default or *Default, or else the first style. The outcome depends on the script alone: not on scripts prepared before, nor on the order of sections, nor on chance.", "quantifier": "all scripts (any number and order of sections), all scripts prepared before, all orders of the hash map", "why_tests_cant": "The settings outlive a script and the order of a hash map changes from run to run, so that a test of one script in one run cannot show what another history or order gives.", "anchors": ["crates/ass-renderer/src/pipeline/build/run.rs: SoftwarePipeline::prepare_script", "crates/ass-renderer/src/pipeline/build/style.rs: OwnedStyle::from_style", "crates/ass-renderer/src/pipeline/build/mod.rs: SoftwarePipeline::new"]}
{"id": "C153", "title": "Finding where a section begins and ends", "statement": "From a place in a script, the search for the header of a section finds the last header that stands wholly between the place and a hundred bytes and the header before it, and gives the beginning of its line; it fails when there is none. The search for the end gives the beginning of the line of the next header of any known section at or after the place, or the end of the script. Neither stops the program when the places are boundaries of characters.", "quantifier": "all sources, all places in them, all kinds of section", "why_tests_cant": "Headers may stand anywhere, in any number and within other text, and the places fall on any byte.", "anchors": ["crates/ass-core/parser/incremental/section_bounds.rs: find_section_header_start, find_section_end"]}
{"id": "C154", "title": "Registering the built-in handlers and those of extensions", "statement": "Registering the built-in handlers succeeds just when none of their tags is taken; then every documented tag is answered by its handler and all others as before. Registering again fails and changes nothing; no registration takes a handler away. Registering a handler of an extension fails just when its name is taken, with an error that names the extension.", "quantifier": "all registries, all handlers, all tags and arguments", "why_tests_cant": "A registry can hold any handlers; tests begin with an empty one.", "anchors": ["crates/ass-editor/extensions/registry_integration/builtins.rs: RegistryIntegration::register_builtin_handlers", "crates/ass-editor/extensions/registry_integration/integration.rs: register_custom_tag_handler, register_custom_section_processor", "crates/ass-editor/extensions/registry_integration/adapters.rs: EditorTagHandlerAdapter, EditorSectionProcessorAdapter"]}
{"id": "C155", "title": "The fonts a script brings", "statement": "Preparing a script hands to the font database every font embedded in the script, decoded, in the order of the script, and then every existing file that a field of the script information whose name says font gives, and nothing else; what was loaded before stays.", "quantifier": "all scripts, all databases, all file systems", "why_tests_cant": "Depends on every combination of sections, names of fields and existing files, and on the scripts prepared before.", "anchors": ["crates/ass-renderer/src/pipeline/font_loader.rs: load_embedded_fonts, load_font_files, load_script_fonts", "crates/ass-renderer/src/pipeline/build/run.rs: SoftwarePipeline::prepare_script"]}
{"id": "C156", "title": "Settings and commands of the built-in extensions", "statement": "When highlighting or completion is initialised, each of its switches is on just when the host gives the word true, each limit is the number the host gives, and what is not given stays. Every command announced is carried out when it has the document it needs; otherwise, and for unknown commands, it is refused with a message and nothing changes. The counts reported are those of the tokens and completions of the document; the completion is that at the position given or at the end of the document; without a position the program is never stopped.", "quantifier": "all hosts and settings, all commands and arguments, all documents, all states of the extensions", "why_tests_cant": "Settings are arbitrary texts, and what a command reports depends on what was highlighted before.", "anchors": ["crates/ass-editor/extensions/builtin/syntax_highlight/editor_ext.rs: SyntaxHighlightExtension (EditorExtension)", "crates/ass-editor/extensions/builtin/auto_complete/editor_ext.rs: AutoCompleteExtension (EditorExtension)"]}
{"id": "C157", "title": "Effect plugins and their parameters", "statement": "Asking the registry for an effect gives the one registered last under that name, unless it has been taken away since; the list names every effect in force exactly once. A parameter of an effect has the value last given to it, and asking for a number, a whole number or a colour gives it only if the value is of that kind. Applying the glow effect changes the picture.", "quantifier": "all histories of registering, taking away and clearing; all histories of parameters; all pictures", "why_tests_cant": "What is found depends on the whole history of calls.", "anchors": ["crates/ass-renderer/src/plugin/mod.rs: PluginRegistry, EffectParams", "crates/ass-renderer/src/plugin/effects/mod.rs: GlowEffect"]}
{"id": "C158", "title": "Chained tag and karaoke operations keep to the range that was chosen", "statement": "Through the chained interface, inserting, removing, replacing and wrapping tags and generating, splitting, adjusting and applying karaoke act on the position or range chosen last and leave all other text as it is; an operation that fails changes nothing; without the position or range it needs, a tag operation fails. Without a range, karaoke is made for dialogue and the script stays a script.", "quantifier": "all texts, all ranges between characters, all tags, patterns, durations and ways of adjusting", "why_tests_cant": "The tests use one line of text and always give a range.", "anchors": ["crates/ass-editor/core/fluent/tag.rs: TagOps", "crates/ass-editor/core/fluent/karaoke.rs: KaraokeOps, KaraokeGenerator", "crates/ass-editor/core/fluent/karaoke_builders.rs: KaraokeSplitter, KaraokeAdjuster, KaraokeApplicator"]}
{"id": "C159", "title": "Errors and collected issues say what happened", "statement": "What an error says of itself agrees: the line number it gives is the line its message names, its category is the one its message begins with, from errors about resources, security and bugs there is no recovery and only these are called so, and it is of at most one of the types that can be asked for. A collector of issues has exactly the issues added since it was last emptied, in order, and a result with issues stays the result it was and counts its issues correctly.", "quantifier": "all errors with all their contents, and all histories of collecting", "why_tests_cant": "There are many kinds of errors, each with numbers and texts of its own; tests look at a few, and at short histories.", "anchors": ["crates/ass-core/utils/errors/core/methods.rs: CoreError::line_number, is_recoverable, is_internal_bug, is_parse_error_type", "crates/ass-core/utils/errors/category: ErrorCategory, CoreError::category", "crates/ass-core/parser/errors: ParseError, ParseIssue, ParseResultWithIssues", "crates/ass-core/tokenizer/state: IssueCollector, IssueLevel", "crates/ass-editor/core/errors/methods.rs: EditorError"]}
{"id": "C160", "title": "What extensions do through their context has its effect", "statement": "What an extension does through the context made for it has its effect: a configuration value or datum it sets is what anyone reads from then on, until it is set again; the events it sends reach the receiver the manager was made with, its messages the message handler, and the commands it registers can be run. Commands are only run by active extensions.", "quantifier": "all histories of managers, contexts and actions, in builds with one thread and with several", "why_tests_cant": "Histories of several extensions and of the owner mix without bound; tests use one extension and one value.", "anchors": ["crates/ass-editor/extensions/context.rs: ExtensionContext, EditorContext", "crates/ass-editor/extensions/manager_lifecycle.rs: create_context, with_event_channel", "crates/ass-editor/extensions/manager_access.rs: get_config, set_config, get_extension_data, set_extension_data, execute_command"]}
{"id": "C161", "title": "Commands on events come to an end and report where they changed the text", "statement": "Every command on events and on embedded files comes to an end, and its result says where it changed the text: outside of the reported range the text is what it was, no reported range means that nothing changed, and the cursor is put at the end of the text or of the range.", "quantifier": "all documents, selections of events, offsets, effects, separators and files", "why_tests_cant": "The commands walk over a text that they change on the way, by positions computed before the change; whether they end and what they report depends on every text and argument.", "anchors": ["crates/ass-editor/commands/command_result.rs: CommandResult", "crates/ass-editor/commands/event_commands/toggle.rs: ToggleEventTypeCommand::execute", "crates/ass-editor/commands/event_commands/timing.rs: TimingAdjustCommand::execute", "crates/ass-editor/commands/event_commands/effect_exec.rs: EventEffectCommand::execute", "crates/ass-editor/commands/event_commands/batch_delete.rs: BatchDeleteEventsCommand::execute", "crates/ass-editor/commands/event_commands/merge.rs: MergeEventsCommand::execute", "crates/ass-editor/commands/fonts_graphics_commands/add.rs: AddFontCommand::execute"]}
{"id": "C162", "title": "A document knows whether it has unsaved changes", "statement": "Whatever has been done with a document, if it says that it has no unsaved changes then its text is the one that was loaded or last saved; a successful save leaves exactly this text in the file and touches no other file.", "quantifier": "all documents, files, paths and histories of edits, commands, undos, redos and saves, failing ones included", "why_tests_cant": "The mark of changes has to be kept by every way of changing the text, in every order, and also when an operation fails half way.", "anchors": ["crates/ass-editor/core/document/metadata.rs: is_modified, set_file_path", "crates/ass-editor/core/document/constructors.rs: from_file, save, save_to_file", "crates/ass-editor/core/document/editing_raw.rs: insert_raw, delete_raw, replace_raw"]}
{"id": "C163", "title": "The tracked cursor follows edits, and undoing reports where it was", "statement": "After an edit the cursor of a document stands behind the inserted text, or where the deleted text was; undoing any number of edits reports the cursors before them, the last first; redoing puts the cursor where it was after the edit.", "quantifier": "all documents, edits, moves of the cursor between them and limits of the history", "why_tests_cant": "The cursors stand in the entries of a history that is trimmed by count and memory; which cursor belongs to which edit depends on all that was done before.", "anchors": ["crates/ass-editor/core/history/manager.rs: UndoManager::record_operation, cursor_position", "crates/ass-editor/core/document/undo_redo.rs: undo, redo", "crates/ass-editor/core/document/validation.rs: execute_command"]}
{"id": "C164", "title": "A document keeps the handlers registered with it", "statement": "The registry of a document can always be set up. From then on the documented tags and the section Aegisub Project are answered by the built-in handlers, and every other tag or section by the first handler registered for it, whatever is registered or edited afterwards. A registration fails exactly if the name is taken. Parsing with the extensions gives the same sections as parsing without them.", "quantifier": "all documents, handlers, processors and sequences of registrations and edits", "why_tests_cant": "Handlers are arbitrary functions, and who answers a name depends on the whole history of registrations.", "anchors": ["crates/ass-editor/core/document/plugins.rs: initialize_registry, registry, parse_with_extensions, register_tag_handler, register_section_processor", "crates/ass-editor/extensions/builtin/mod.rs: register_builtin_extensions"]}
{"id": "C165", "title": "Edits at a position change exactly the text there", "statement": "at(pos).insert_text, delete_range and replace_text change exactly the text from the position on, of the given length in bytes; a position or length that leads behind the text is refused and nothing changes; undoing gives back the text.", "quantifier": "all documents, positions, lengths up to the largest usize, texts, with and without overflow checks", "why_tests_cant": "The end of the range is a sum that can overflow, and what then happens depends on how the program was built.", "anchors": ["crates/ass-editor/core/document/position_api.rs: at, DocumentPosition::insert_text, delete_range, replace_text"]}
{"id": "C166", "title": "The message of an editor error tells what happened", "statement": "Two errors of the editor with the same message are the same error, so that the message tells the kind of the error with all its places, lengths and names. An edit that leads behind the text fails with an error that names the place or range asked for and the length of the document.", "quantifier": "all errors of the editor, documents, places and ranges", "why_tests_cant": "Messages are built from arbitrary names and numbers; that no two of them coincide is a statement about all pairs of errors.", "anchors": ["crates/ass-editor/core/errors/types.rs: EditorError", "crates/ass-editor/core/errors/display.rs: Display", "crates/ass-editor/core/document/editing_raw.rs: insert_raw, delete_raw, replace_raw"]}
{"id": "C167", "title": "The messages of the library and of the renderer tell their errors apart", "statement": "Two parse errors, two errors of the library and two errors of the renderer with the same message are the same error: the message tells what is wrong, where (line, place, sizes, limits) and why. Whether rendering may be gone on with after an error, and whether it is about resources, can be told from its message.", "quantifier": "all errors of the parser, the library and the renderer", "why_tests_cant": "Messages are built from arbitrary names, values and numbers; that no two of them coincide is a statement about all pairs of errors.", "anchors": ["crates/ass-core/parser/errors/parse_error/formatting.rs: Display", "crates/ass-core/utils/errors/core/display.rs: Display", "crates/ass-renderer/src/utils/errors.rs: RenderError, is_recoverable, is_resource_error"]}
{"id": "C168", "title": "A listener can follow a document by its events", "statement": "Every successful edit of a document is told by one event that says how the old text became the new one, with the text that was there before, and a refused edit by none. So whoever has the text at first and hears the events has the text at last, and whoever has the text at last can go back. The range of an event is where the text stands that it is about. Filters let through exactly the kinds of events asked for.", "quantifier": "all documents, sequences of edits, events and filters", "why_tests_cant": "The listener must agree with the document after any sequence of edits; tests look at single events.", "anchors": ["crates/ass-editor/events/event.rs: DocumentEvent", "crates/ass-editor/events/event_query.rs: is_modification, affects_text, affected_range, event_type_name", "crates/ass-editor/core/document/editing.rs: insert, delete, replace", "crates/ass-editor/core/document/incremental_edit.rs: edit_incremental", "crates/ass-editor/core/document/undo_redo.rs: undo, redo", "crates/ass-editor/events/filter.rs: matches"]}
{"id": "C169", "title": "The validation result a document remembers is that of its text", "statement": "After any sequence of edits, executed commands, validations and changes of settings, the validation result a document remembers is the one that validating its present text anew with the present settings would give. Validating returns exactly that result and whether the document is valid is told from it. After a successful edit nothing is remembered.", "quantifier": "all documents, settings and sequences of edits and validations", "why_tests_cant": "A stale result shows only after particular sequences of edits and validations; every path that changes the text must clear it.", "anchors": ["crates/ass-editor/core/document/validation.rs: execute_command, validate_comprehensive, force_validate, is_valid_cached, validation_result, set_validator_config", "crates/ass-editor/core/document/editing.rs: insert, delete, replace", "crates/ass-editor/core/document/undo_redo.rs: undo, redo", "crates/ass-editor/utils/validator: LazyValidator"]}
{"id": "C170", "title": "What tokens say of themselves", "statement": "The end column of a token is the column of what follows it in its line, and the next token begins there or behind white space. A token that says it is a delimiter, white space or structural is one; no token is empty. A token and its type give the same answers, and the names of the types tell them apart.", "quantifier": "all sources, all tokens the tokenizer returns and all token types", "why_tests_cant": "Columns and answers must be right for every token of every source; tests look at a few tokens.", "anchors": ["crates/ass-core/tokenizer/tokens/token.rs: len, is_empty, end_column, is_whitespace, is_delimiter, is_content", "crates/ass-core/tokenizer/tokens/token_type.rs: is_delimiter, is_structural, is_content, is_skippable, name"]}
{"id": "C171", "title": "Chained edits of a style give each field the value last set", "statement": "Editing a style by chained setters gives every field of its line the value last set for it and leaves the other fields alone. The result depends neither on the order of setters of different fields nor on the order in which a hash map gives its entries.", "quantifier": "all documents, styles and sequences of setters, all orders of the hash map", "why_tests_cant": "The order of a hash map changes from run to run and all sequences of setters count; a test sees one order.", "anchors": ["crates/ass-editor/core/fluent/style.rs: StyleEditor", "crates/ass-editor/commands/style_commands/edit.rs: EditStyleCommand"]}
{"id": "C172", "title": "A line parsed for its section is what it is read as anyway", "statement": "Parsing a line for a named section gives the event, style or field that the line is read as when its kind is found from its look, with the formats of the script; a line that is none for that section is refused.", "quantifier": "all scripts, lines and line numbers", "why_tests_cant": "Two ways of reading a line must agree on all lines and formats; tests compare a few.", "anchors": ["crates/ass-core/parser/script/auto.rs: parse_line_in_section", "crates/ass-core/parser/script/auto.rs: parse_line_auto"]}
{"id": "C173", "title": "What is shown of a parse issue tells what it is", "statement": "The text shown of a parse issue determines its line, column, category and severity, and its message and suggestion; an issue is blocking just when it is shown as critical.", "quantifier": "all issues: every line, column, category, severity, message and suggestion", "why_tests_cant": "That no two different issues look the same speaks of all pairs of issues; tests show a few.", "anchors": ["crates/ass-core/parser/errors/parse_issue/issue.rs: ParseIssue::format_for_display", "crates/ass-core/parser/errors/parse_issue/issue.rs: ParseIssue::is_blocking", "crates/ass-core/parser/errors/parse_issue/category.rs: IssueCategory", "crates/ass-core/parser/errors/parse_issue/severity.rs: IssueSeverity"]}
{"id": "C174", "title": "The check of benchmark results fails just when a benchmark is too slow", "statement": "The program that checks benchmark results ends with success just when the directory can be read and no benchmark of incremental parsing takes more than 5 ms and none has become slower by more than a tenth; every comparison is told once, as slower, faster or unchanged.", "quantifier": "all directories of results, all file contents and numbers in them", "why_tests_cant": "The check guards every release: it must be right for all numbers and texts, at the limits too; tests try a few.", "anchors": ["crates/ass-core/bin/check_perf_regression.rs: main", "crates/ass-core/bin/check_perf_regression/analysis.rs: analyze_regressions", "crates/ass-core/bin/check_perf_regression/analysis.rs: analyze_performance_targets", "crates/ass-core/bin/check_perf_regression/loading.rs: extract_mean_estimate", "crates/ass-core/bin/check_perf_regression/types.rs: RegressionAnalysis::has_failures"]}
{"id": "C175", "title": "The validation of benchmark results succeeds just when no time is over its limit", "statement": "The program that validates benchmark results ends with success just when both files can be read and no line of the incremental results says that a benchmark of incremental parsing or an editor simulation took longer than allowed for its size; what is loaded is what the lines say.", "quantifier": "all pairs of result files: every line, name and number", "why_tests_cant": "The validation guards every release: it must be right for all lines and numbers; tests try a few.", "anchors": ["crates/ass-core/bin/validate_bench_results.rs: main", "crates/ass-core/bin/validate_bench_results/loader.rs: load_benchmark_results", "crates/ass-core/bin/validate_bench_results/validate.rs: validate_incremental_performance", "crates/ass-core/bin/validate_bench_results/validate.rs: validate_parser_performance", "crates/ass-core/bin/validate_bench_results/types.rs: ValidationResults::is_success"]}
{"id": "C176", "title": "Moving an event in time and back again", "statement": "Moving an event by the fluent interface twice is moving it once by the sum; moving it and moving it back gives the text there was; moving only the start or only the end leaves the other time as it is.", "quantifier": "all documents, events, times and offsets", "why_tests_cant": "Two edits in a row must agree with one for all times and offsets; tests try a few, far from the limits.", "anchors": ["crates/ass-editor/core/fluent/event_merge_timing.rs: EventTimer::shift", "crates/ass-editor/core/fluent/event_merge_timing.rs: EventTimer::shift_start", "crates/ass-editor/core/fluent/event_merge_timing.rs: EventTimer::shift_end", "crates/ass-editor/core/fluent/event_merge_timing.rs: EventTimer::adjust"]}
{"id": "C177", "title": "The effect of an event after any number of changes", "statement": "After any number of changes of the effect of an event by the fluent interface, its effect is the words that were set, appended and prepended since it was last set or cleared, in order and with blanks between them, and nothing else in the document has changed.", "quantifier": "all documents, events, words and histories of changes", "why_tests_cant": "It speaks of all histories of changes; tests try one or two changes.", "anchors": ["crates/ass-editor/core/fluent/event_toggle_effect.rs: EventEffector::set", "crates/ass-editor/core/fluent/event_toggle_effect.rs: EventEffector::clear", "crates/ass-editor/core/fluent/event_toggle_effect.rs: EventEffector::append", "crates/ass-editor/core/fluent/event_toggle_effect.rs: EventEffector::prepend"]}
{"id": "C178", "title": "Cutting an event and putting the halves together", "statement": "An event cut at a time inside it and put together again is the event it was; and if one of the halves is deleted instead, the event is the one it was but for ending, or beginning, at that time.", "quantifier": "all documents, events and times inside them", "why_tests_cant": "It speaks of all events and times, and of the composition of commands; tests try the commands one at a time.", "anchors": ["crates/ass-editor/core/fluent/event_merge_timing.rs: EventMerger::apply", "crates/ass-editor/core/fluent/event_merge_timing.rs: EventMerger::with_separator", "crates/ass-editor/commands/event_commands/split.rs: SplitEventCommand", "crates/ass-editor/commands/event_commands/delete.rs: DeleteEventCommand"]}
