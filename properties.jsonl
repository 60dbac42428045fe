{"id": "C01", "title": "Header validation is exact", "statement": "pyflp.parse rejects with HeaderCorrupted every file whose first 22 bytes are not: 'FLhd', chunk size 6, a known FileFormat, a channel count, a PPQ in VALID_PPQS, 'FLdt', and a non-zero 32-bit data size equal to (file length - 22); and it never raises HeaderCorrupted for a file that has all of these.", "quantifier": "every byte string offered as a file", "why_tests_cant": "the set of byte strings is infinite and every header field interacts with the file length; the tests hold six corrupt samples", "anchors": ["pyflp/__init__.py:parse", "pyflp/__init__.py:FLP_HEADER", "pyflp/project.py:VALID_PPQS", "pyflp/project.py:FileFormat"]}
{"id": "C02", "title": "Truncated or padded files are always detected", "statement": "For every file pyflp.save can write, parsing any strict prefix of it (any point at which the final write was cut) raises HeaderCorrupted, and so does parsing it with one or more extra bytes appended; no cut file is ever accepted as a shorter project.", "quantifier": "every saveable project, every crash point of the write, every non-empty suffix", "why_tests_cant": "each project has thousands of cut points; tests cannot enumerate projects x cut points", "anchors": ["pyflp/__init__.py:parse", "pyflp/__init__.py:save"]}
{"id": "C03", "title": "Saved files carry a correct header", "statement": "The bytes written by pyflp.save start with a header holding the project's format and PPQ and the number of channels found in its events, followed by a data size that equals the exact number of event bytes written after it; parse's header check accepts them whenever the project holds at least one event and a valid PPQ and format.", "quantifier": "every project (any number and size of events)", "why_tests_cant": "size arithmetic must hold for every number and length of events, including multi-byte lengths", "anchors": ["pyflp/__init__.py:save", "pyflp/__init__.py:parse", "pyflp/channel.py:ChannelRack.__len__"]}
{"id": "C04", "title": "Saving then parsing returns the same events", "statement": "If every event of a project holds a value its event type can represent, then parsing the file pyflp.save writes gives a project with the same format and PPQ and exactly the same sequence of events: same IDs, same event types, same values, same order.", "quantifier": "every project whose event values are representable (any number of events, any mixture of event types)", "why_tests_cant": "round-trip must hold for all event sequences including the ones whose typing depends on earlier events (version, plugin name)", "anchors": ["pyflp/__init__.py:parse", "pyflp/__init__.py:save", "pyflp/_events.py:EventBase.__bytes__", "pyflp/_events.py:EventBase.__init__"]}
{"id": "C05", "title": "Parsing then saving a canonical file is byte-identical", "statement": "If a file parses and it is canonical (channel count equal to the number of channel-start events, minimal length prefixes, each text ending in exactly one NUL, booleans stored as 0/1, no bytes beyond the fields PyFLP knows), saving the project again writes exactly the same bytes.", "quantifier": "every canonical file", "why_tests_cant": "byte identity over an unbounded set of files and event mixtures", "anchors": ["pyflp/__init__.py:parse", "pyflp/__init__.py:save", "pyflp/_events.py:EventBase.__bytes__"]}
{"id": "C06", "title": "Re-saving is idempotent", "statement": "Once a parsed project has been saved, parsing that file and saving again writes the same bytes: PyFLP normalises a file at most once and never drifts.", "quantifier": "every file that parses and saves", "why_tests_cant": "drift could appear only for rare values (track heights, old truncated events, list sizes) that sample files do not contain", "anchors": ["pyflp/__init__.py:parse", "pyflp/__init__.py:save", "pyflp/arrangement.py:HeightAdapter", "pyflp/arrangement.py:TrackEvent"]}
{"id": "C07", "title": "The parser terminates and accounts for every byte", "statement": "On every byte string parse finishes, with a project or an exception; when it succeeds the event chunk is exactly the concatenation of the frames of the events, in file order, and there are at most (file length - 22)/2 + 1 of them.", "quantifier": "every byte string", "why_tests_cant": "termination and full consumption for all inputs, including adversarial length prefixes", "anchors": ["pyflp/__init__.py:parse"]}
{"id": "C08", "title": "Event framing is unambiguous", "statement": "Two different sequences of (event ID, payload) can never serialise to the same bytes: the ID-determined 1/2/4-byte or length-prefixed framing is uniquely decodable.", "quantifier": "every pair of finite sequences of (id, payload) with payload sizes legal for the id", "why_tests_cant": "quantifies over pairs of unbounded sequences", "anchors": ["pyflp/_events.py:EventBase.__bytes__", "pyflp/__init__.py:parse"]}
{"id": "C09", "title": "Event constructors reject exactly the illegal id/size combinations", "statement": "Creating a fixed-size event with an ID outside its type's range raises EventIDOutOfRange; with data whose length is not 1 (id<64), 2 (id<128) or 4 (id<192) raises InvalidEventChunkSize; a correctly sized integer, boolean or raw event in range is always accepted.", "quantifier": "every event type, id 0-255 and byte string", "why_tests_cant": "ranges over all ids and all byte strings", "anchors": ["pyflp/_events.py:EventBase.__init__", "pyflp/_events.py:ByteEventBase", "pyflp/_events.py:WordEventBase", "pyflp/_events.py:DWordEventBase", "pyflp/_events.py:StrEventBase"]}
{"id": "C10", "title": "Event.size is the serialised size", "statement": "Whenever an event can be serialised, its size property equals the number of bytes it serialises to.", "quantifier": "every event with every value", "why_tests_cant": "value and size of payload unbounded; fixed ids use a hard-coded size table", "anchors": ["pyflp/_events.py:EventBase.size", "pyflp/_events.py:EventBase.__bytes__"]}
{"id": "C11", "title": "Integer events never wrap", "statement": "Setting an integer-valued event to v and serialising either stores v exactly (re-reading the bytes gives v) when v fits the event's width and signedness, or raises; no other integer is ever stored.", "quantifier": "every integer event type, every integer v (unbounded)", "why_tests_cant": "all integers, including those far out of range", "anchors": ["pyflp/_events.py:I8Event", "pyflp/_events.py:U8Event", "pyflp/_events.py:I16Event", "pyflp/_events.py:U16Event", "pyflp/_events.py:I32Event", "pyflp/_events.py:U32Event", "pyflp/_events.py:U16TupleEvent"]}
{"id": "C12", "title": "A failing save leaves the target file alone", "statement": "If pyflp.save raises because the project cannot be serialised, the file at the target path still has its previous content; the target is only touched after every byte has been produced.", "quantifier": "every project, every failure point in serialisation, every previous file content", "why_tests_cant": "failure can come from any event at any position", "anchors": ["pyflp/__init__.py:save"]}
{"id": "C13", "title": "Unknown events are preserved byte for byte", "statement": "An event whose ID PyFLP does not know, in the data range, is kept as raw bytes: after parse and save its payload is unchanged, whatever it contains.", "quantifier": "every unknown id >= 208, every payload", "why_tests_cant": "payloads are arbitrary", "anchors": ["pyflp/_events.py:UnknownDataEvent", "pyflp/__init__.py:parse"]}
{"id": "C14", "title": "Event typing does not depend on enum registration order", "statement": "The event type chosen for an ID is the same for every order in which the ID enumerations are registered (import order), because no ID is claimed by two enumerations; an ID claimed by none falls back by range.", "quantifier": "every id 0-255, every permutation of the ID enumerations", "why_tests_cant": "all permutations of 13 enumerations cannot be imported in tests", "anchors": ["pyflp/__init__.py:parse", "pyflp/_events.py:EventEnum._missing_", "pyflp/_events.py:_EventEnumMeta.__contains__"]}
{"id": "C15", "title": "Text encoding follows the project version", "statement": "A text event without a fixed type is decoded as UTF-16 if the latest preceding version event is 11.5 or newer and as ASCII if it is older; if no version event precedes it parse raises VersionNotDetected.", "quantifier": "every event stream", "why_tests_cant": "depends on the whole history of preceding events", "anchors": ["pyflp/__init__.py:parse", "pyflp/project.py:ProjectID.FLVersion"]}
{"id": "C16", "title": "Text values survive a save", "statement": "Setting a text event to any string that its encoding can represent and that does not end in NUL, then serialising and re-reading, gives the same string; for UTF-16 this includes characters outside the BMP.", "quantifier": "every string (any length, any code points)", "why_tests_cant": "all Unicode strings", "anchors": ["pyflp/_events.py:UnicodeEvent", "pyflp/_events.py:AsciiEvent"]}
{"id": "C17", "title": "Length prefixes are exact and minimal", "statement": "The variable-length size written before a text/data event decodes to exactly the payload size, leaves the rest of the stream untouched, and uses the fewest 7-bit groups possible; padded (non-minimal) prefixes are also accepted on reading.", "quantifier": "every natural number, every following byte stream", "why_tests_cant": "unbounded sizes", "anchors": ["pyflp/_events.py:EventBase.__bytes__", "pyflp/__init__.py:parse"]}
{"id": "C18", "title": "Plugin data is typed by the closest preceding internal name", "statement": "The type of a plugin data event is determined by the most recent plugin internal-name event before it, known names give their own event type and every other name (or none) keeps the raw bytes.", "quantifier": "every event stream", "why_tests_cant": "depends on unbounded history", "anchors": ["pyflp/__init__.py:parse", "pyflp/plugin.py:get_event_by_internal_name"]}
{"id": "C19", "title": "A crash during save never yields a silently wrong project", "statement": "At every crash point of pyflp.save, the target file either has its old content, is complete, or is rejected by parse with HeaderCorrupted; ideally (user expectation) it is never lost.", "quantifier": "every project, every old content, every crash point (before open, after truncation, after any number of bytes)", "why_tests_cant": "crash points cannot be scheduled in unit tests", "anchors": ["pyflp/__init__.py:save", "pyflp/__init__.py:parse"]}
{"id": "C20", "title": "The root event list behaves like a list under any history", "statement": "Any sequence of insert(pos, event), pop(id, n) and remove(id, n) on a project's top-level EventTree has the effect of the same operations on a plain list of events; errors (IndexError, KeyError) leave it unchanged.", "quantifier": "every initial event list, every finite operation sequence", "why_tests_cant": "unbounded histories; index bookkeeping errors only show after particular sequences", "anchors": ["pyflp/_events.py:EventTree.insert", "pyflp/_events.py:EventTree.pop", "pyflp/_events.py:EventTree.remove"]}
{"id": "C21", "title": "Removing through a view removes exactly that event everywhere above", "statement": "pop/remove on a view (subtree of any depth) removes the selected event from the view and from every ancestor, removes nothing else, and keeps the order of all other events.", "quantifier": "every tree hierarchy of any depth, every view, id and position", "why_tests_cant": "all hierarchies and contents", "anchors": ["pyflp/_events.py:EventTree.pop", "pyflp/_events.py:EventTree._recursive"]}
{"id": "C22", "title": "Removals through disjoint sibling views compose", "statement": "Any interleaving of removals through views that share no event (for instance different channels or different patterns) removes exactly the selected events from the project, in every order.", "quantifier": "every set of disjoint views, every finite interleaving of removals", "why_tests_cant": "all interleavings", "anchors": ["pyflp/_events.py:EventTree.pop", "pyflp/_events.py:EventTree.divide", "pyflp/_events.py:EventTree.separate"]}
{"id": "C23", "title": "Removing an event twice through overlapping views does not remove another event", "statement": "If two views show the same event and it is removed through both, no other event may disappear from the project.", "quantifier": "every pair of overlapping views", "why_tests_cant": "histories over aliased views", "anchors": ["pyflp/_events.py:EventTree.pop", "pyflp/_events.py:EventTree.subtree"]}
{"id": "C24", "title": "Insertion through a view lands at the corresponding place of the project", "statement": "insert(pos, event) on a view puts the event at position pos of the view and immediately before the view's former pos-th event in every ancestor; repeated insertions keep view and project in the same order.", "quantifier": "every hierarchy, view, position and finite sequence of insertions", "why_tests_cant": "index bookkeeping only breaks after particular sequences", "anchors": ["pyflp/_events.py:EventTree.insert"]}
{"id": "C25", "title": "append adds at the end", "statement": "EventTree.append(event) adds the event after all events of the tree.", "quantifier": "every tree", "why_tests_cant": "all tree contents", "anchors": ["pyflp/_events.py:EventTree.append", "pyflp/_events.py:EventTree.insert"]}
{"id": "C26", "title": "divide splits without losing, duplicating or reordering events", "statement": "The views yielded by divide(separator, ids) are, in order, a partition of the events whose id is in ids; there is one view per separator occurrence (one if there is none), and every view after the first starts at a separator.", "quantifier": "every event list, separator and id set", "why_tests_cant": "all event lists", "anchors": ["pyflp/_events.py:EventTree.divide"]}
{"id": "C27", "title": "subtrees yields the closed segments only, at most repeat of them", "statement": "subtrees(select, repeat) yields min(repeat, number of False answers) views; concatenated they are the selected events up to the last cut, in order, each event once; each view after the first starts with the event that closed the previous one.", "quantifier": "every event list, every (stateless) selector, every repeat count", "why_tests_cant": "all lists and selectors", "anchors": ["pyflp/_events.py:EventTree.subtrees"]}
{"id": "C28", "title": "group pairs the n-th occurrences", "statement": "group(*ids) yields as many views as the most frequent id occurs, and the n-th view holds exactly the n-th occurrence of every id that occurs more than n times.", "quantifier": "every event list and tuple of distinct ids", "why_tests_cant": "all event lists", "anchors": ["pyflp/_events.py:EventTree.group"]}
{"id": "C29", "title": "Views never contain foreign or reordered events", "statement": "Every view created from a tree by subtree, separate, divide, subtrees or group holds only events of that tree, each at most once, and in the tree's order.", "quantifier": "every tree, every view-creating call", "why_tests_cant": "all trees and selectors", "anchors": ["pyflp/_events.py:EventTree.subtree", "pyflp/_events.py:EventTree.separate", "pyflp/_events.py:EventTree.divide", "pyflp/_events.py:EventTree.group", "pyflp/_events.py:EventTree.subtrees"]}
{"id": "C30", "title": "Each view is registered once with its parent", "statement": "After creating a view, the parent's children list contains it exactly once.", "quantifier": "every tree and view-creating call", "why_tests_cant": "all call histories", "anchors": ["pyflp/_events.py:yields_child", "pyflp/_events.py:EventTree.__init__", "pyflp/_events.py:EventTree.subtree"]}
{"id": "C31", "title": "Every view knows the topmost tree", "statement": "The root attribute of a tree created under a parent is the topmost ancestor, whatever the contents of the ancestors.", "quantifier": "every hierarchy", "why_tests_cant": "depends on emptiness of ancestors at creation time", "anchors": ["pyflp/_events.py:EventTree.__init__"]}
{"id": "C32", "title": "Event properties write through and touch nothing else", "statement": "Setting an event-backed property changes the value of exactly one event of the project (the first one with the first listed ID present in the model), reading it back returns the value set, and every other event, hence every other part of the saved file, is unchanged.", "quantifier": "every model view, property, value and surrounding project", "why_tests_cant": "frame condition over all projects", "anchors": ["pyflp/_descriptors.py:PropBase.__set__", "pyflp/_descriptors.py:PropBase._get_event", "pyflp/_descriptors.py:EventProp"]}
{"id": "C33", "title": "Absent events read as default and refuse writes", "statement": "If none of a property's events exists, reading returns the declared default and writing raises PropertyCannotBeSet and changes nothing; read-only properties always refuse.", "quantifier": "every model view without the events", "why_tests_cant": "all projects", "anchors": ["pyflp/_descriptors.py:PropBase.__get__", "pyflp/_descriptors.py:PropBase.__set__"]}
{"id": "C34", "title": "Flag properties read back what was set", "statement": "After setting a boolean flag property (inverted or not) reading it returns that boolean, for every previous flag word.", "quantifier": "every flag word, every defined flag, both polarities", "why_tests_cant": "all 2^32 flag words", "anchors": ["pyflp/_descriptors.py:FlagProp"]}
{"id": "C35", "title": "Setting one flag leaves the other bits alone", "statement": "Setting or clearing a flag property changes no bit of the stored flag word other than that flag's.", "quantifier": "every flag word, every flag class, every supported Python version", "why_tests_cant": "unknown bits in real files are not in the sample files", "anchors": ["pyflp/_descriptors.py:FlagProp._set"]}
{"id": "C36", "title": "Struct properties write exactly one field", "statement": "Setting a struct-backed property replaces exactly that field of the event's value; reading returns the value; fields absent in the file refuse writes with PropertyCannotBeSet; unknown keys raise KeyError.", "quantifier": "every struct event, field and value", "why_tests_cant": "all field combinations and truncations", "anchors": ["pyflp/_events.py:StructEventBase.__setitem__", "pyflp/_descriptors.py:StructProp"]}
{"id": "C37", "title": "Unrepresentable field values are rejected, not dropped", "statement": "Setting a numeric field of a structured event to a value that does not fit makes save fail; it never produces a file in which the field is missing or another field changed.", "quantifier": "every struct event, field and out-of-range value", "why_tests_cant": "all out-of-range values", "anchors": ["pyflp/_events.py:StructEventBase", "pyflp/channel.py:DelayEvent", "pyflp/arrangement.py:TrackEvent"]}
{"id": "C38", "title": "Structured events survive parse and serialise", "statement": "Parsing a complete structured event (all fields present, nothing after them) and serialising it gives the same bytes, for every structured event type of the library and every byte content with canonical booleans.", "quantifier": "every fixed-layout event type, every byte string of the full size", "why_tests_cant": "2^(8*size) contents per event type", "anchors": ["pyflp/channel.py:DelayEvent", "pyflp/channel.py:EnvelopeLFOEvent", "pyflp/channel.py:LevelsEvent", "pyflp/channel.py:ParametersEvent", "pyflp/arrangement.py:TrackEvent", "pyflp/mixer.py:InsertFlagsEvent", "pyflp/plugin.py:WrapperEvent"]}
{"id": "C39", "title": "Truncated structured events of older versions survive", "statement": "A structured event that ends early (older FL Studio versions) is serialised to the same bytes it was parsed from and its missing fields stay missing.", "quantifier": "every structured event type, every truncation point", "why_tests_cant": "all truncation points of all event types", "anchors": ["pyflp/channel.py:ParametersEvent", "pyflp/arrangement.py:TrackEvent"]}
{"id": "C40", "title": "Editing a list item edits only that item", "statement": "Changing a property of a note, automation controller or playlist item changes only that item's record in the event, at its own position; all other items and the item count stay the same, for any sequence of edits through any number of item objects.", "quantifier": "every list event, every finite sequence of item edits", "why_tests_cant": "unbounded edit histories", "anchors": ["pyflp/_models.py:ItemModel.__setitem__", "pyflp/pattern.py:NotesEvent", "pyflp/arrangement.py:PlaylistEvent"]}
{"id": "C41", "title": "The parts of a project are disjoint and complete", "statement": "project.patterns, project.arrangements, project.channels and project.mixer each consist of the project's events of their kind, in file order; a time marker belongs to the patterns if it stands before the first arrangement and to the arrangements otherwise; no event belongs to two parts.", "quantifier": "every project reachable by parsing and editing", "why_tests_cant": "depends on every possible order of events in the file", "anchors": ["pyflp/project.py:Project.arrangements", "pyflp/project.py:Project.channels", "pyflp/project.py:Project.mixer", "pyflp/project.py:Project.patterns"]}
{"id": "C42", "title": "Header values and single-event settings survive saving", "statement": "After assigning ppq, format or channel_count the new value reads back, nothing else changes, a value that cannot be stored is refused; after saving and parsing, these and version, licensee and tempo read the same.", "quantifier": "every reachable project, every assigned value", "why_tests_cant": "unbounded set of projects and histories", "anchors": ["pyflp/project.py:Project.ppq", "pyflp/project.py:Project.channel_count", "pyflp/project.py:Project.format", "pyflp/__init__.py:save"]}
{"id": "C43", "title": "The licensee reads back as assigned", "statement": "Assigning project.licensee changes only the licensee event, stores ASCII text, and reads back as the assigned text for licensees of letters and digits; a refused assignment changes nothing.", "quantifier": "every reachable project, every string", "why_tests_cant": "all strings", "anchors": ["pyflp/project.py:Project.licensee"]}
{"id": "C44", "title": "The version reads back as assigned", "statement": "A version assigned as FLVersion, string or tuple reads back as the same version, sets the version event and (if given) the build event and changes nothing else; malformed versions are refused without any change.", "quantifier": "every reachable project, every version, all three argument forms", "why_tests_cant": "all versions, all projects", "anchors": ["pyflp/project.py:Project.version", "pyflp/types.py:FLVersion"]}
{"id": "C45", "title": "Changing the version keeps the data of the project", "statement": "After assigning a different version and saving, the file is parsed back to the same events, so all names and texts read the same.", "quantifier": "every reachable project, every pair of versions", "why_tests_cant": "the text encoding of all later events depends on the version event", "anchors": ["pyflp/project.py:Project.version", "pyflp/__init__.py:parse", "pyflp/__init__.py:save"]}
{"id": "C46", "title": "The tempo reads back as assigned", "statement": "An accepted tempo lies in the range of the project's version; a whole tempo reads back exactly and a fractional one to within a thousandth; only the tempo events change; refused tempos change nothing; assigning the tempo that was just read changes nothing.", "quantifier": "every reachable project, every int or float", "why_tests_cant": "all floating point numbers", "anchors": ["pyflp/project.py:Project.tempo"]}
{"id": "C47", "title": "Patterns collect exactly their events", "statement": "Iterating over project.patterns yields one pattern per pattern number, in order of first occurrence; each shows exactly the pattern and time marker events that follow a New event with its number, in order; together they show every such event exactly once.", "quantifier": "every reachable project and patterns view", "why_tests_cant": "patterns are spread over the event list in arbitrary interleavings", "anchors": ["pyflp/pattern.py:Patterns.__iter__"]}
{"id": "C48", "title": "len(), iteration and iids of patterns agree", "statement": "len(project.patterns) is the number of patterns iteration yields, and their iids are their numbers, pairwise different.", "quantifier": "every reachable project", "why_tests_cant": "all interleavings of pattern events", "anchors": ["pyflp/pattern.py:Patterns.__len__", "pyflp/pattern.py:Pattern.iid"]}
{"id": "C49", "title": "Renumbering a pattern keeps everything else", "statement": "pattern.iid = v with a number not in use changes exactly the New events of that pattern; iterating again yields the same patterns in the same order, the others unchanged.", "quantifier": "every reachable project, every pattern, every unused number", "why_tests_cant": "all interleavings of pattern events", "anchors": ["pyflp/pattern.py:Pattern.iid", "pyflp/pattern.py:Patterns.__iter__"]}
{"id": "C50", "title": "Patterns are looked up by index, name and slice", "statement": "patterns[i], patterns[name] and patterns[a:b] give what indexing, searching and slicing the list of patterns would give, or raise ModelNotFound.", "quantifier": "every reachable project, every subscript", "why_tests_cant": "all subscripts and all event lists", "anchors": ["pyflp/pattern.py:Patterns.__getitem__", "pyflp/_models.py:supports_slice"]}
{"id": "C51", "title": "The current pattern is the one whose number is selected", "statement": "patterns.current is the pattern with the stored number, or None if there is none.", "quantifier": "every reachable project", "why_tests_cant": "all interleavings of pattern events", "anchors": ["pyflp/pattern.py:Patterns.current"]}
{"id": "C52", "title": "Time marker position and type decode the stored number", "statement": "The position and the type of a marker are those encoded in its position event (2^27 is added for signatures); both are None iff the event is missing.", "quantifier": "every reachable project, every marker, every stored number", "why_tests_cant": "all 32 bit numbers", "anchors": ["pyflp/timemarker.py:TimeMarker.position", "pyflp/timemarker.py:TimeMarker.type"]}
{"id": "C53", "title": "Time markers consist of the events that belong together", "statement": "The time markers of a pattern or arrangement are the consecutive blocks of marker events.", "quantifier": "every reachable project, every view", "why_tests_cant": "all event lists", "anchors": ["pyflp/pattern.py:Pattern.timemarkers", "pyflp/arrangement.py:Arrangement.timemarkers", "pyflp/_events.py:EventTree.group"]}
{"id": "C54", "title": "Note keys can be read and assigned as names or numbers", "statement": "note.key is the name of the stored number, different numbers have different names; assigning a number from 0 to 131 or a name stores it, anything else raises ValueError and changes nothing.", "quantifier": "every note of every reachable list of notes, every number, every string", "why_tests_cant": "all strings and numbers", "anchors": ["pyflp/pattern.py:Note.key"]}
{"id": "C55", "title": "Items stay attached to their records", "statement": "After records of a list event were deleted, an edit through an item object changes exactly the record the object stands for.", "quantifier": "every sequence of fetching items, edits and deletions", "why_tests_cant": "all histories", "anchors": ["pyflp/_models.py:ItemModel.__setitem__", "pyflp/_events.py:ListEventBase.__delitem__"]}
{"id": "C56", "title": "Arrangements partition their events", "statement": "Iterating over project.arrangements yields len() arrangements; each shows the events from its New event up to the next one, in order, and no event is shown by two of them.", "quantifier": "every reachable project, every list of events of the arrangements", "why_tests_cant": "all event lists, all earlier edits", "anchors": ["pyflp/arrangement.py:Arrangements.__iter__", "pyflp/arrangement.py:Arrangements.__len__", "pyflp/_events.py:EventTree.subtrees"]}
{"id": "C57", "title": "Looking up arrangements", "statement": "arrangements[i] is the i-th arrangement of the iteration, arrangements[name] the first one with this name, ModelNotFound is raised if there is none; arrangements.current is None if no position is stored, else the arrangement at the stored position of the iteration, and ModelNotFound is raised if there are not so many.", "quantifier": "every reachable project, every number and string", "why_tests_cant": "all projects and keys", "anchors": ["pyflp/arrangement.py:Arrangements.__getitem__", "pyflp/arrangement.py:Arrangements.current"]}
{"id": "C58", "title": "Tracks partition their events", "statement": "arrangement.tracks yields one track per track record, and each track shows the events from its record up to the next one.", "quantifier": "every reachable project, every arrangement", "why_tests_cant": "all event lists", "anchors": ["pyflp/arrangement.py:Arrangement.tracks", "pyflp/_events.py:EventTree.divide"]}
{"id": "C59", "title": "Inserts partition the events of the mixer", "statement": "Iterating over project.mixer yields one insert per Output event, at most max_inserts; each insert shows the events up to and including its own Output event, and no event of the mixer is left out.", "quantifier": "every reachable project, every version, every list of mixer events", "why_tests_cant": "all event lists and versions", "anchors": ["pyflp/mixer.py:Mixer.__iter__", "pyflp/mixer.py:Insert.output"]}
{"id": "C60", "title": "Looking up inserts", "statement": "mixer[i] is the insert whose iid is i (numbers start at -1), mixer[name] the first one with this name; ModelNotFound is raised if there is none.", "quantifier": "every reachable project, every number and string", "why_tests_cant": "all projects and keys", "anchors": ["pyflp/mixer.py:Mixer.__getitem__", "pyflp/mixer.py:Mixer.__iter__"]}
{"id": "C61", "title": "max_inserts is the number of inserts of the FL Studio version", "statement": "mixer.max_inserts is the number documented for the version of the project.", "quantifier": "every version", "why_tests_cant": "infinitely many versions", "anchors": ["pyflp/mixer.py:Mixer.max_inserts"]}
{"id": "C62", "title": "Slots partition the events of an insert", "statement": "Iterating over an insert yields len(insert) slots, which show all slot and plugin events of the insert, once and in order.", "quantifier": "every reachable project, every insert", "why_tests_cant": "all event lists", "anchors": ["pyflp/mixer.py:Insert.__iter__", "pyflp/mixer.py:Insert.__len__"]}
{"id": "C63", "title": "Insert parameters are stored in their own record", "statement": "insert.pan, volume, stereo_separation and the properties of the equaliser bands are the value of the last stored record about this parameter of this insert, None without one; assigning changes exactly this record, is read back, and raises PropertyCannotBeSet without changing anything if there is none.", "quantifier": "every list of parameter records, every insert and parameter, every sequence of assignments", "why_tests_cant": "all record lists and histories", "anchors": ["pyflp/mixer.py:MixerParamsEvent", "pyflp/mixer.py:_MixerParamProp", "pyflp/mixer.py:_InsertEQBandProp", "pyflp/mixer.py:Insert"]}
{"id": "C64", "title": "Slot parameters can be read", "statement": "slot.enabled and slot.mix are the values stored for the slot.", "quantifier": "every list of parameter records, every slot", "why_tests_cant": "all record lists", "anchors": ["pyflp/mixer.py:Slot.enabled", "pyflp/mixer.py:Slot.mix", "pyflp/mixer.py:Insert.__iter__"]}
{"id": "C65", "title": "routes are the volumes of the active sends", "statement": "insert.routes yields the volume of the send to insert j for every j whose routing flag is set, in order.", "quantifier": "every list of parameter records, every list of routing flags, every insert", "why_tests_cant": "all record and flag lists", "anchors": ["pyflp/mixer.py:Insert.routes"]}
{"id": "C66", "title": "dock depends on its own bits only", "statement": "insert.dock is determined by the two dock bits of the flags; assigning the boolean properties of the insert does not change it.", "quantifier": "every reachable project, every flags word, every boolean property, Python up to 3.10 and from 3.11", "why_tests_cant": "all flag words", "anchors": ["pyflp/mixer.py:Insert.dock", "pyflp/_descriptors.py:FlagProp"]}
{"id": "C67", "title": "tracks partition the playlist", "statement": "Iterating over an arrangement's tracks gives to every track the playlist items whose record names it, in the order of the records, each as the channel or pattern whose iid the record holds; every item is on exactly one track.", "quantifier": "every list of playlist records after any sequence of edits through items, every list of channel and pattern iids, every version", "why_tests_cant": "all lists of records and iids", "anchors": ["pyflp/arrangement.py:Arrangement.tracks", "pyflp/arrangement.py:PlaylistEvent", "pyflp/arrangement.py:Track"]}
{"id": "C68", "title": "channel and pattern of a playlist item can be replaced", "statement": "Assigning item.channel or item.pattern changes the item_index of that record only, and reading the tracks again finds this channel or pattern.", "quantifier": "every list of records after any edits, every item obtained, every channel and pattern", "why_tests_cant": "all iids and bases", "anchors": ["pyflp/arrangement.py:ChannelPLItem", "pyflp/arrangement.py:PatternPLItem"]}
{"id": "C69", "title": "offsets and muted of a playlist item", "statement": "Assigning item.offsets is read back and changes these fields of the record only; item.muted can be read, and assigning it is saved.", "quantifier": "every list of records after any edits, every item, every value", "why_tests_cant": "all histories of edits", "anchors": ["pyflp/arrangement.py:PLItemBase"]}
{"id": "C70", "title": "loop position", "statement": "arrangements.loop_pos is the playlist selection, or the old event if there is none; assigning it is read back and changes one event; if it raises nothing has changed.", "quantifier": "every reachable project, every pair", "why_tests_cant": "all histories and contents", "anchors": ["pyflp/arrangement.py:Arrangements.loop_pos"]}
{"id": "C71", "title": "number of tracks by version", "statement": "arrangements.max_tracks is 500 from version 12.9.1 on and 199 before.", "quantifier": "every version", "why_tests_cant": "all versions, with and without build number", "anchors": ["pyflp/arrangement.py:Arrangements.max_tracks", "pyflp/types.py:FLVersion"]}
{"id": "C72", "title": "Channels of the rack", "statement": "Iterating over project.channels yields one channel per New event, in file order, with the class its type event tells, its display group and exactly its own events; len() is their number; nothing in the project changes.", "quantifier": "every reachable project", "why_tests_cant": "all contents and histories", "anchors": ["pyflp/channel.py:ChannelRack.__iter__", "pyflp/channel.py:ChannelRack.__len__", "pyflp/_events.py:EventTree.divide"]}
{"id": "C73", "title": "Channel by number or name", "statement": "project.channels[i] is the first channel with this iid, or with this display name (the name, or the internal name if there is no name); if there is none ChannelNotFound is raised.", "quantifier": "every reachable project, every number or string", "why_tests_cant": "all contents and histories", "anchors": ["pyflp/channel.py:ChannelRack.__getitem__", "pyflp/channel.py:Channel.display_name"]}
{"id": "C74", "title": "Children of a layer", "statement": "Iterating over a layer yields the channels whose numbers it stores, in their order; len() is their number; layer[i] is the first of them with this iid, else ChannelNotFound; nothing raises KeyError.", "quantifier": "every reachable project, every layer however it was obtained", "why_tests_cant": "all contents, histories and ways to get at the layer", "anchors": ["pyflp/channel.py:Layer"]}
{"id": "C75", "title": "Every property of every model can be read and assigned", "statement": "Reading any declared property of a channel, plugin, slot, insert, pattern, marker, arrangement or track gives the value (field, flag) of the event it stands for, or the default if the model has no such event, and does not raise; assigning a value of its type to a property that has a value succeeds, changes only that event and is read back.", "quantifier": "every property of the table of all properties, every state of every program that parses a file, makes models, removes events and assigns properties", "why_tests_cant": "all files and histories, all 217 properties", "anchors": ["pyflp/_descriptors.py:PropBase", "pyflp/_descriptors.py:EventProp", "pyflp/_descriptors.py:StructProp", "pyflp/_descriptors.py:FlagProp", "pyflp/channel.py:Arp", "pyflp/channel.py:Channel", "pyflp/plugin.py:_PluginBase", "pyflp/mixer.py:Slot", "pyflp/arrangement.py:Track"]}
{"id": "C76", "title": "Properties do not disturb each other", "statement": "Assigning one property leaves the value of every other property of every model unchanged, unless both are names for the same value.", "quantifier": "every pair of properties, every pair of models of every reachable project, every assigned value", "why_tests_cant": "all pairs of properties, models, values and histories", "anchors": ["pyflp/_descriptors.py:PropBase", "pyflp/_descriptors.py:FlagProp", "pyflp/_events.py:EventTree"]}
{"id": "C77", "title": "Assigned properties are saved", "statement": "After assigning any property and saving, parsing the file gives the events of the project with their values, and the property has the assigned value.", "quantifier": "every property, every storable project, every value of the type of the property", "why_tests_cant": "all files, values and properties; depends on byte layouts of all events", "anchors": ["pyflp/_descriptors.py", "pyflp/__init__.py:save", "pyflp/__init__.py:parse", "pyflp/plugin.py:_WrapperFlags", "pyflp/plugin.py:PluginID"]}
{"id": "C78", "title": "Pan and volume of channels", "statement": "channel.pan and channel.volume are the numbers stored in the levels event, else those of the older events, else None; assigning a number makes it the value, changes only these events, and it is saved; if there is none, PropertyCannotBeSet is raised and nothing changes.", "quantifier": "every channel of every reachable project, every number in the documented range", "why_tests_cant": "all files of all versions, all values and histories", "anchors": ["pyflp/channel.py:Channel.pan", "pyflp/channel.py:Channel.volume", "pyflp/channel.py:ChannelID"]}
{"id": "C79", "title": "Pitch shift of channels", "statement": "channel.pitch_shift is the number in the levels event or None; assigning gives the new number, leaves everything else and is saved.", "quantifier": "every channel of every reachable project, every number", "why_tests_cant": "all files, values and histories", "anchors": ["pyflp/channel.py:_SamplerInstrument.pitch_shift"]}
{"id": "C80", "title": "Reverb", "statement": "reverb.type and reverb.mix are independent: assigning one gives it the assigned value and leaves the other.", "quantifier": "every channel of every reachable project, both types, every mix", "why_tests_cant": "two values are packed in one number; all stored numbers and values", "anchors": ["pyflp/channel.py:Reverb.type", "pyflp/channel.py:Reverb.mix", "pyflp/channel.py:ReverbType"]}
{"id": "C81", "title": "Delay", "statement": "delay.mod_x and delay.mod_y are the two stored numbers; assigning one leaves the other; without the event all four operations raise KeyError and nothing changes; numbers of 16 bits are saved.", "quantifier": "every channel of every reachable project, every number", "why_tests_cant": "all files, values and histories", "anchors": ["pyflp/channel.py:Delay.mod_x", "pyflp/channel.py:Delay.mod_y"]}
{"id": "C82", "title": "Trackings, envelopes and LFOs", "statement": "channel.tracking, sampler.envelopes and sampler.lfos are None without such events, else pair their fixed names in order with models that have one of these events each; reading them changes nothing.", "quantifier": "every channel of every reachable project", "why_tests_cant": "all numbers and positions of events, all histories", "anchors": ["pyflp/channel.py:_SamplerInstrument.tracking", "pyflp/channel.py:Sampler.envelopes", "pyflp/channel.py:Sampler.lfos"]}
{"id": "C83", "title": "Paths of samples and of the data folder", "statement": "sampler.sample_path and project.data_path are the path with the stored text, or None; after assigning Path(q), reading gives Path(q), whatever q is; only that text changes, and it is saved if its characters can be encoded; without the event PropertyCannotBeSet is raised and nothing changes.", "quantifier": "every storable reachable project, every string q (POSIX paths)", "why_tests_cant": "all texts, in particular empty paths, dots and repeated slashes", "anchors": ["pyflp/channel.py:Sampler.sample_path", "pyflp/project.py:Project.data_path"]}
{"id": "C84", "title": "Points of automation clips", "statement": "Iterating an automation channel gives one point for every point of the clip, in order; each shows the value and tension stored for it, and its position is the sum of the offsets up to it. Assigning value or tension of a point changes only that number of that point and is saved; assigning a position raises PropertyCannotBeSet. Without automation data there are no points.", "quantifier": "every project state reachable by the API, every automation clip with any number of points, every point and assigned value", "why_tests_cant": "the number of points and the values are unbounded; a test has a few clips", "anchors": ["pyflp/channel.py:AutomationEvent", "pyflp/channel.py:AutomationPoint", "pyflp/channel.py:Automation", "pyflp/_models.py:ItemModel"]}
{"id": "C85", "title": "Track colours", "statement": "track.color is the colour of the four stored bytes, or None where none is stored. Assigning a colour with components between 0 and 1 is read back within half the distance of two shades (exactly, if the colour has been read); it changes nothing but the colour of that track and is saved. A component outside of the range raises ValueError and changes nothing; a track without a stored colour raises PropertyCannotBeSet.", "quantifier": "every reachable project state, every track and every RGBA colour", "why_tests_cant": "rounding has to be right for every one of the continuum of component values and for all 2^32 stored colours", "anchors": ["pyflp/arrangement.py:_TrackColorProp", "pyflp/types.py:RGBA"]}
{"id": "C86", "title": "Colours of channels, inserts and patterns", "statement": "An assigned colour is read back as it is, and after saving and parsing within half the distance of two shades (exactly, if it has been read from a file); nothing else in the file changes. With a component outside of the range saving raises.", "quantifier": "every reachable storable project state, every colour event and every RGBA colour", "why_tests_cant": "rounding has to be right for every component value; the rest of the file is arbitrary", "anchors": ["pyflp/_events.py:ColorEvent", "pyflp/types.py:RGBA", "pyflp/channel.py:Channel.color"]}
{"id": "C87", "title": "Texts of VST plugins", "statement": "name, vendor, fourcc, plugin_path, guid and state of a VST plugin are the data of the matching part of the plugin data. An assigned value is read back, everything else in the project stays, and the project can still be saved.", "quantifier": "every reachable project state, every VST plugin and every assigned text or byte string", "why_tests_cant": "plugin data is a list of arbitrary parts, any of which may be missing or repeated", "anchors": ["pyflp/plugin.py:_VSTPluginProp", "pyflp/plugin.py:VSTPlugin"]}
{"id": "C88", "title": "Numbers of VST plugins", "statement": "midi.input, midi.output, midi.pb_range and fast_idle are the numbers stored in the plugin data, or None if the data is too short. An assigned number is read back and saved.", "quantifier": "every reachable project state, every VST plugin and every assigned number", "why_tests_cant": "the surrounding plugin data and the project are arbitrary", "anchors": ["pyflp/plugin.py:_VSTPluginProp", "pyflp/plugin.py:VSTPlugin"]}
{"id": "C89", "title": "Flags of VST plugins", "statement": "Each boolean of a VST plugin (automation, compatibility, processing, UI, MIDI) is one bit of the plugin data, inverted where documented. Assigning it changes that flag and no other.", "quantifier": "every reachable project state, every VST plugin, every flag, every stored word and both values", "why_tests_cant": "2^32 words for each of two fields, within arbitrary plugin data", "anchors": ["pyflp/plugin.py:_VSTFlagProp", "pyflp/plugin.py:VSTPlugin"]}
{"id": "C90", "title": "Models within models", "statement": "The model behind a nested property (channel.delay, insert.eq, channel.plugin, slot.plugin, ...) has exactly the events of its parent with the ids of the property, as the same objects. Getting it changes neither the project nor any other model, and afterwards both show the same values whatever is assigned through either. A plugin is None without plugin data or without a fitting class, and otherwise has the class of its data.", "quantifier": "every reachable project state, every parent model, every list of ids and every later assignment", "why_tests_cant": "models are views of views of shared events; any history of reads and assignments may precede", "anchors": ["pyflp/_descriptors.py:NestedProp", "pyflp/plugin.py:PluginProp"]}
{"id": "C91", "title": "Assigning a plugin", "statement": "After channel.plugin = p (or slot.plugin = p) the channel has a plugin of the class of p with the values of p, saved and read back as such, and independent of the channel p comes from.", "quantifier": "every reachable project state, every channel or slot and every plugin of the project", "why_tests_cant": "the result depends on which events the target and the plugin have and on later changes of either", "anchors": ["pyflp/plugin.py:PluginProp"]}
{"id": "C92", "title": "Class of a plugin is that of its internal name", "statement": "For a channel or slot with plugin data of a parsed project, the class of .plugin is the one belonging to the last internal name before the data in the file, if it is one of the thirteen known names and of the right sort (instrument for channels, effect for slots); it is None for a known name of the wrong sort, and the plain plugin class for all other names.", "quantifier": "every file that parses, every state reached without changing the events, every channel and slot and every internal name", "why_tests_cant": "internal names are arbitrary strings and the name that counts is found anywhere before the data in the file", "anchors": ["pyflp/plugin.py:PluginProp", "pyflp/plugin.py:get_event_by_internal_name", "pyflp/__init__.py:parse"]}
{"id": "C93", "title": "Equality of models", "statement": "Two models compare equal exactly if they have the same class and the same events; `channel in project.channels` tells whether the rack has this channel.", "quantifier": "every pair of models of every pair of parsed projects, in every reachable state", "why_tests_cant": "equality of whole projects ranges over all files", "anchors": ["pyflp/_models.py:EventModel.__eq__", "pyflp/_events.py:EventTree.__eq__", "pyflp/_events.py:IndexedEvent"]}
{"id": "C94", "title": "Slices of collections", "statement": "For every collection that can be subscripted by a number, c[a:b] is the list of c[a], ..., c[b-1], as far as they exist; a missing bound stands for the beginning or the end.", "quantifier": "every collection (arrangements, inserts, slots, channels, children of layers, automation points) of every reachable project, and all bounds", "why_tests_cant": "bounds are arbitrary integers and the collections have any length", "anchors": ["pyflp/_models.py:supports_slice"]}
{"id": "C95", "title": "Slots by index and name", "statement": "insert[i] is the i-th slot of the iteration over the insert and insert[name] the first one with this name; ModelNotFound without one.", "quantifier": "every insert of every reachable project, every index and name", "why_tests_cant": "indices and names are arbitrary and the slots depend on the events of the insert", "anchors": ["pyflp/mixer.py:Insert.__getitem__", "pyflp/mixer.py:Insert.__iter__"]}
{"id": "C96", "title": "Numbers of inserts and slots", "statement": "len(project.mixer) is the number of inserts iterating over the mixer gives, and NoModelsFound if there are none; max_slots is the number of slots documented for the version.", "quantifier": "every reachable project state, every mixer and every FL Studio version", "why_tests_cant": "mixers have any number of inserts, recognised by different events in different functions; versions are arbitrary numbers", "anchors": ["pyflp/mixer.py:Mixer.__len__", "pyflp/mixer.py:Mixer.__iter__", "pyflp/mixer.py:Mixer.max_slots"]}
{"id": "C97", "title": "Channels by class and display groups", "statement": "project.channels.automations, .instruments, .layers and .samplers give the channels of this class in their order, every channel in exactly one of them; .groups gives the display groups in their order; none of them changes the project.", "quantifier": "every reachable project state and every rack", "why_tests_cant": "racks have any number of channels in any order; the class depends on several events of the channel", "anchors": ["pyflp/channel.py:ChannelRack.automations", "pyflp/channel.py:ChannelRack.instruments", "pyflp/channel.py:ChannelRack.layers", "pyflp/channel.py:ChannelRack.samplers", "pyflp/channel.py:ChannelRack.groups"]}
{"id": "C98", "title": "Creation date and working time", "statement": "project.created_on is the stored number of days after 30 December 1899 and project.time_spent the stored number of days, both to the microsecond; both are None without a timestamp, and neither raises for a file that parses.", "quantifier": "every reachable project state and every pair of stored doubles", "why_tests_cant": "2^64 stored values each; the conversion rounds twice", "anchors": ["pyflp/project.py:Project.created_on", "pyflp/project.py:Project.time_spent", "pyflp/project.py:TimestampEvent"]}
{"id": "C99", "title": "Remote controllers", "statement": "controller.parameter is the low 15 bits of the stored word and controls_vst its highest bit; both are None if there is no such word.", "quantifier": "every reachable project state and every stored word", "why_tests_cant": "holds for all 65536 words, in every event layout", "anchors": ["pyflp/controller.py:RemoteController"]}
{"id": "C100", "title": "The tempo is the one stored in the project", "statement": "Reading the tempo gives the stored number of thousandths divided by 1000, to float precision; in projects that store a whole tempo and thousandths separately their sum; in projects with a whole tempo only that number, as an int; and None if nothing is stored. Reading it never raises.", "quantifier": "every reachable project, every stored number", "why_tests_cant": "all combinations of tempo events and all numbers in them; floating point rounding", "anchors": ["pyflp/project.py:Project.tempo"]}
{"id": "C101", "title": "The stored build number follows the version", "statement": "After assigning a version, the build number stored in the project is that of the assigned version.", "quantifier": "every reachable project, every version, all three argument forms", "why_tests_cant": "all versions and all projects", "anchors": ["pyflp/project.py:Project.version"]}
{"id": "C102", "title": "Musical times survive storing", "statement": "A musical time (bars, beats, ticks) stored in a channel's time stretching field and read again has the same length and is written in whole bars, beats below 16 and ticks below 240; times already of that form read back unchanged.", "quantifier": "every musical time that fits the field", "why_tests_cant": "the conversion multiplies by the binary64 number nearest to 0.2; it must not round down to the wrong number anywhere in the range", "anchors": ["pyflp/_adapters.py:LinearMusical", "pyflp/types.py:MusicalTime"]}
{"id": "C103", "title": "Edits of notes and other list items reach the saved file", "statement": "Editing any fields of any notes, controllers or playlist items through their objects, any number of times and through objects fetched at different moments, with values that fit the fields, leaves a project that still saves; the file has the same size as before, and parsing it gives the same events except that each edited record has exactly the edits made to it. `pattern.notes` and `pattern.controllers` give one object per record of the pattern's first such event and nothing if there is none.", "quantifier": "every project that parses and saves, every list event in it, every sequence of fetches and edits with values that fit", "why_tests_cant": "the edits, their order, the aliasing of the objects and the contents of the project are unbounded", "anchors": ["pyflp/_models.py:ItemModel", "pyflp/_events.py:ListEventBase", "pyflp/pattern.py:Pattern.notes", "pyflp/pattern.py:Pattern.controllers", "pyflp/__init__.py:save"]}
{"id": "C104", "title": "Note.slide changes only the slide flag", "statement": "Assigning `note.slide` succeeds and reads back through every object for that note; no other note and no other field changes, and the note's other flags are kept.", "quantifier": "every list of notes, history of edits, note, 16-bit flag word, and supported Python version", "why_tests_cant": "the flag words and the histories are unbounded, and a flag outside the known members is only lost on some Python versions", "anchors": ["pyflp/pattern.py:Note.slide", "pyflp/_descriptors.py:FlagProp", "pyflp/_models.py:ItemModel"]}
{"id": "C105", "title": "Every event has the class declared for its id", "statement": "Every event of a parsed file is of the event class that PyFLP declares for its id; an id without a declared class is read as an unsigned number of the size that belongs to the id, a text, plugin data or raw bytes, by its range.", "quantifier": "every file that parses and every event in it", "why_tests_cant": "256 ids times all files and orders of events", "anchors": ["pyflp/__init__.py:parse", "pyflp/_events.py:EventEnum", "pyflp/controller.py:ControllerID"]}
{"id": "C106", "title": "The licensee of every project can be read", "statement": "Reading project.licensee never raises: it is None if the project has no licensee event, and otherwise the text of letters and digits that the stored text stands for, character by character.", "quantifier": "every reachable state of a parsed project, every stored licensee text", "why_tests_cant": "all stored texts of any length and alphabet; tests hold a handful of names", "anchors": ["pyflp/project.py:Project.licensee"]}
{"id": "C107", "title": "Printing a model shows each of its properties", "statement": "The repr of a model without a __repr__ of its own succeeds and shows, in the order of the class, every public attribute that the class declares, each with the value that reading the attribute gives.", "quantifier": "every class of models of events that inherits the generic repr, every reachable state of a parsed project, every model of the class", "why_tests_cant": "all classes times all events a file can contain, also after assignments", "anchors": ["pyflp/_models.py:ModelReprMixin", "pyflp/channel.py:Delay", "pyflp/channel.py:Arp", "pyflp/channel.py:Reverb", "pyflp/timemarker.py:TimeMarker"]}
{"id": "C108", "title": "A session of edits leaves a project that can be saved and read again", "statement": "Open a project and then, in any order and any number of times, create models, assign to properties (table properties, pan, volume, pitch shift, reverb, delay, track colours, paths, automation points, VST texts and flags, loop position, format, ppq, channel count, tempo, licensee, version, items of patterns and playlists, mixer parameters, pattern numbers) values that have a place in the file, and remove events. Whatever the sequence: the events are those of the file, in order and with their types (without the removed ones); saving succeeds if it succeeded before and the data stays below 4 GB; the saved file is read as exactly the state that was saved, and saving it again gives the same bytes.", "quantifier": "all files that can be parsed, all finite sequences of view creations, assignments and removals in any order, all assigned values that fit", "why_tests_cant": "The claim is about the composition of arbitrarily many edits in arbitrary order through models that share events; tests try a few single assignments.", "anchors": ["pyflp/__init__.py:save", "pyflp/_descriptors.py:PropBase.__set__", "pyflp/_events.py:EventTree.pop", "pyflp/project.py:Project", "pyflp/mixer.py:_MixerParamProp", "pyflp/_models.py:ItemModel.__setitem__"]}
{"id": "C109", "title": "What the collections of a project are, whatever the order of its events", "statement": "For every project, well-formed or not, and after any editing: len(project.patterns) is the number of different values of pattern New events (NoModelsFound without any); iterating gives a pattern for every one of them, and before them a pattern without a number if pattern events precede the first New event; project.patterns.current is None without a selected number, raises KeyError if there is a pattern without a number, and is the pattern with the selected number otherwise (None if there is none). The arrangements are the stretches of events that end before each Current event and before each New event but the first, as many as there are New events, without the last stretch. The channels are the stretches of events that end before each New event but the first; iterating stops with KeyError, IndexError or TypeError exactly at the first channel without number, type or group number, or whose group does not exist (negative group numbers count from the last group).", "quantifier": "all projects, all orders and multiplicities of events, all views reachable by editing", "why_tests_cant": "Tests use projects saved by FL Studio; the order of events in other files, and after editing, is unbounded.", "anchors": ["pyflp/pattern.py: Patterns", "pyflp/arrangement.py: Arrangements.__iter__", "pyflp/channel.py: ChannelRack.__iter__", "pyflp/_events.py: EventTree.divide, EventTree.subtrees, EventTree.separate"]}
{"id": "C110", "title": "Changing values while looping", "statement": "A for-loop over patterns, arrangements, tracks, channels, inserts, slots, time markers or display groups whose body assigns values, changes header numbers, reads models or runs other loops visits the same models with the same events, in the same order, as a loop over a list made before it, and ends after the last one. The loop itself changes nothing. A channel gets the class its events have when it is its turn.", "quantifier": "every project, every collection, every interleaving of the rounds of the loop with value assignments, header assignments and creation of views, in any number", "why_tests_cant": "the outcome depends on when a suspended generator is resumed relative to the edits; tests try a few schedules", "anchors": ["pyflp/_events.py: yields_child, EventTree.divide, EventTree.subtrees, EventTree.separate, EventTree.group", "pyflp/pattern.py: Patterns.__iter__", "pyflp/channel.py: ChannelRack.__iter__"]}
{"id": "C111", "title": "Removing and inserting events while looping", "statement": "A for-loop over a collection whose body removes events from, or inserts events into, the model it has been given visits the models that a loop over a list made before it visits, each with all its events.", "quantifier": "every project, every collection, every interleaving of the rounds of the loop with removals and insertions", "why_tests_cant": "whether a suspended loop skips or repeats an event depends on the position it has reached when the list changes", "anchors": ["pyflp/_events.py: yields_child, EventTree.divide, EventTree.pop, EventTree.insert", "pyflp/pattern.py: Patterns.__iter__", "pyflp/channel.py: ChannelRack.__iter__"]}
{"id": "C112", "title": "list() and truth values of collections", "statement": "list(c) of patterns, arrangements, the mixer, an insert, the channel rack, a layer or a track has exactly the models a for-loop over c visits and raises only what the loop raises; bool(c) tells whether the loop visits anything.", "quantifier": "every project and every reachable state of it", "why_tests_cant": "both built-ins go through len(), whose answer depends on other events than the loop; tests use complete projects", "anchors": ["pyflp/pattern.py: Patterns.__len__, Patterns.__iter__", "pyflp/arrangement.py: Arrangements.__len__, Track.__len__", "pyflp/mixer.py: Mixer.__len__, Insert.__len__", "pyflp/channel.py: ChannelRack.__len__, Layer.__len__"]}
{"id": "C113", "title": "reversed() of collections", "statement": "reversed(c) of patterns, arrangements, the mixer, an insert, the channel rack, a layer or a track visits the models of a for-loop over c in reverse order, with the same events, and changes nothing.", "quantifier": "every project and every reachable state of it", "why_tests_cant": "reversed() uses len() and one lookup per number, each of which iterates anew; the outcome depends on how lookups number the models and on exceptions it takes for the end", "anchors": ["pyflp/pattern.py: Patterns.__getitem__", "pyflp/arrangement.py: Arrangements.__getitem__, Track.__getitem__", "pyflp/mixer.py: Mixer.__getitem__, Insert.__getitem__", "pyflp/channel.py: ChannelRack.__getitem__, Layer.__getitem__, ChannelNotFound", "pyflp/exceptions.py: ModelNotFound"]}
{"id": "C114", "title": "Notes of a Fruity NoteBook 2", "statement": "For a mixer slot with Fruity NoteBook 2, `active_page`, `editable` and `pages` are those stored in its plugin data. Assigning one of them changes it and nothing else, and if the new value fits the format the project is stored and read back with it; a page number that is no unsigned 32-bit number, or a page whose text does not fit, makes saving fail instead of storing something else. Documented: `pages` maps page numbers to contents, and contents can be edited.", "quantifier": "All reachable project states, notebooks, pages, texts and numbers", "why_tests_cant": "Lengths, indices and texts of pages are unbounded and interact with the variable-length prefix and the greedy list; tests try a handful of notebooks", "anchors": ["pyflp/plugin.py:FruityNotebook2", "pyflp/plugin.py:FruityNotebook2Event", "pyflp/plugin.py:_NativePluginProp", "pyflp/_descriptors.py:StructProp"]}
{"id": "C115", "title": "Comparing versions", "statement": "Any two FL Studio versions can be compared with <, <=, >, >=: the first number where they differ decides, none is older than itself, one of two different versions is older, and comparison is transitive. Different versions have different texts, and the text of a version is read back as the same version.", "quantifier": "All pairs and triples of versions, with and without build numbers", "why_tests_cant": "Versions are four unbounded integers, one of them optional; order axioms range over all triples", "anchors": ["pyflp/types.py:FLVersion"]}
{"id": "C116", "title": "Iterating over the tracks of an arrangement", "statement": "Iterating over arrangement.tracks yields one track per track data event of the arrangement, holding the track's events, and its items are exactly the playlist records whose track number (counted from the last track) is that track's, in their order, each naming the last channel (or pattern) of the project with the record's number. Iteration stops with an exception only at the first track that has a record naming no channel or pattern; no other track is lost and the project is not changed.", "quantifier": "every project and state a program can reach, every arrangement, channel rack, set of patterns and version, playlists of every size", "why_tests_cant": "Four collections interact: events of the arrangement, the whole rack, all patterns and the version; which exception wins depends on all of them. Test files only have well-formed playlists.", "anchors": ["pyflp/arrangement.py: Arrangement.tracks, PlaylistEvent", "pyflp/_events.py: ListEventBase.__init__", "pyflp/channel.py: ChannelRack.__iter__", "pyflp/pattern.py: Patterns.__iter__, Pattern.iid"]}
{"id": "C117", "title": "A plain number assigned to an enum property moves the other fields of the saved record", "statement": "The properties with enum members (`Track.motion`, `press`, `trigger_sync`, `position_sync`, `LFO.shape`, `Filter.type`, `Content.declick_mode`, `TimeStretching.mode`, plugin `page`) accept a plain `int` and give it back, and saving raises nothing; but the saved event lacks the bytes of the property, so whatever follows it in the record is read with other values from the saved file.  (The property a user expects, that an assigned number is saved or refused, is false.)", "quantifier": "every reachable project with storable values, every model with such a property that can be read, every number", "why_tests_cant": "needs every record, every number and every state a project can be edited into; tests assign members of the enums", "anchors": ["pyflp/_adapters.py:StdEnum", "pyflp/_events.py:StructEventBase.__setitem__", "pyflp/arrangement.py:TrackEvent", "pyflp/channel.py:ParametersEvent", "pyflp/plugin.py:WrapperEvent"]}
{"id": "C118", "title": "Lookups that stop at the model they find", "statement": "`project.patterns[i]`, `project.arrangements[i]`, `project.mixer[i]`, `insert[i]`, `project.channels[i]` and `project.patterns.current` walk over their collection and stop at the first model that passes. They always come to an end, they give the model a list of the whole collection would have had (or raise what walking it would have raised up to that point), they change nothing of the project, and every view that was usable before stays usable and shows the same events.", "quantifier": "every project state reachable by the modelled operations, every number or text given as a subscript", "why_tests_cant": "A lookup creates views of only those models it has walked over, so what it leaves behind depends on where it stops; tests subscript a few models of one file.", "anchors": ["pyflp/pattern.py:Patterns.__getitem__", "pyflp/pattern.py:Patterns.current", "pyflp/arrangement.py:Arrangements.__getitem__", "pyflp/mixer.py:Mixer.__getitem__", "pyflp/mixer.py:Insert.__getitem__", "pyflp/channel.py:ChannelRack.__getitem__"]}
{"id": "C119", "title": "The texts of models say what their properties say", "statement": "str() and repr() of patterns, time markers, display groups, channels, arrangements, tracks, inserts, notes, controllers, of the rack, the patterns, the arrangements, the mixer and of the project succeed for every model that iterating yields, and what they state (numbers, names, how many notes, controllers, markers, tracks, children, items, and whether a marker is a signature) is what reading the properties and iterating gives.", "quantifier": "every reachable state of a parsed project, every model", "why_tests_cant": "all orders and multiplicities of events, also after assignments and removals", "anchors": ["pyflp/pattern.py:Pattern.__repr__", "pyflp/pattern.py:Patterns.__str__", "pyflp/timemarker.py:TimeMarker.__str__", "pyflp/channel.py:Channel.__repr__", "pyflp/channel.py:Layer.__repr__", "pyflp/channel.py:Sampler.__repr__", "pyflp/arrangement.py:Arrangement.__repr__", "pyflp/arrangement.py:Track.__repr__", "pyflp/mixer.py:Mixer.__str__", "pyflp/project.py:Project.__str__"]}
{"id": "C120", "title": "A file that was opened and saved can be opened again", "statement": "If a file opens and the project is saved without any change, the saved file opens; the project has the same format and resolution, the number of channels is the one found in the events, the events have the same ids and classes in the same order, and every event that is not a structure, a list or VST data has the same value.", "quantifier": "All files that open and whose project can be saved, well-formed or not, canonical or not.", "why_tests_cant": "The set of files is unbounded, and the interesting ones are those with payloads PyFLP does not write itself (cut structures, unterminated texts, foreign sizes).", "anchors": ["pyflp/__init__.py:parse", "pyflp/__init__.py:save", "pyflp/_events.py:EventBase.__init__", "pyflp/_events.py:EventBase.__bytes__"]}
{"id": "C121", "title": "Saving over and over settles", "statement": "Opening a file and saving it, then opening the saved file and saving that, and so on without end, changes the file only finitely often: from some save on every save writes the very same bytes. (For files with channel parameters this presumes that the platform's logarithms settle: storing what was read of a stored logarithm does not enlarge a positive one, does not change the sign, and ends for a negative one.)", "quantifier": "All infinite sequences of files in which every file is what is saved after opening the one before.", "why_tests_cant": "It is a statement about an infinite history; a test sees finitely many saves of finitely many files, and there are files that change on every one of the first saves.", "anchors": ["pyflp/__init__.py:parse", "pyflp/__init__.py:save", "pyflp/arrangement.py:HeightAdapter", "pyflp/_adapters.py:Log2", "pyflp/_adapters.py:LogNormal", "pyflp/_events.py:StructEventBase"]}
{"id": "C122", "title": "What was opened can be saved", "statement": "Every file of at most 100 MB that opens as a project with at least one and at most 65535 channels can be saved again, whatever the payloads of its events are. Saving an opened project raises in three cases only: no channel (NoModelsFound), more than 65535 channels (struct.error), 4 GiB of events or more (OverflowError).", "quantifier": "All files that open, with any events and any payloads.", "why_tests_cant": "Event classes are parsed leniently (optional fields, cut structures, texts without terminator), so that the values that reach the serialisers are not just those of well-formed files; no sample covers the combinations.", "anchors": ["pyflp/__init__.py:save", "pyflp/_events.py:EventBase.__bytes__", "pyflp/_events.py:StructEventBase", "pyflp/plugin.py:VSTPluginEvent", "pyflp/channel.py:ChannelRack.__len__"]}
{"id": "C123", "title": "Files survive any number of editing rounds", "statement": "Open a project, edit it in any way (properties, removals and insertions), save it, and do this again and again: every file obtained on the way can be opened, it has the events of the first file in their order and with their types apart from those that were removed or inserted in some round, and in every round the saved file is read back exactly as the state that was saved, and saving it again gives the same bytes.", "quantifier": "every file that can be opened and whose values have a place in the file, every number of rounds, every sequence of edits in each round", "why_tests_cant": "Unit tests perform one round of one edit; errors that accumulate over rounds (sizes recorded when the event was read, types that depend on other events) need an induction over histories.", "anchors": ["pyflp/__init__.py: parse, save", "pyflp/_events.py: EventBase, StructEventBase, ListEventBase, EventTree", "pyflp/_descriptors.py: PropBase, EventProp, StructProp"]}
{"id": "C124", "title": "Mixer slots, their plugins and equalisers can be printed", "statement": "repr(slot) shows the name, the index and the plugin of the slot, and the plugin is shown with the values its attributes give; repr(insert.eq) and repr of each of its bands show their size and their gain, frequency and resonance. Printing changes nothing and never raises an exception.", "quantifier": "every project, every reachable state, every slot with any plugin data, every insert and every record of mixer parameters", "why_tests_cant": "Whether printing works depends on which optional sub-events or records a project happens to contain; sample projects have all of them or none.", "anchors": ["pyflp/mixer.py: Slot.__repr__, InsertEQ, InsertEQBand, _InsertEQProp", "pyflp/plugin.py: VSTPlugin.__repr__, _VSTPluginProp, PluginProp, FruityNotebook2", "pyflp/_models.py: ModelReprMixin.__repr__"]}
{"id": "C125", "title": "An event id is one and the same enumeration member, with its declared name", "statement": "EventEnum(n) gives, for each n from 0 to 255, a member that equals n, and the same object at every later time, whatever was opened or imported in between; any other integer raises ValueError. It is the member an enumeration of pyflp declares for the number (EventEnum(193) is PatternID.Name), so that events are shown with their names, and a member named like the number if none declares it.", "quantifier": "all programs: any sequence of lookups, calls of the derived enumerations, opened files and imported modules; all integers", "why_tests_cant": "The registry of members is global state of the process that grows with every file opened; what a lookup gives depends on the whole history of lookups and imports.", "anchors": ["pyflp/_events.py:EventEnum.__new__, EventEnum._missing_, _EventEnumMeta.__contains__, EventBase.__init__", "pyflp/__init__.py:parse", "pyflp/controller.py:ControllerID"]}
{"id": "C126", "title": "Stretch factors, start positions and lengths survive saving to within one step of their logarithm", "statement": "The stretch factor (`stretching.multiplier`), the start (`fx.start`) and the length (`fx.length`) of a channel are stored as whole numbers of 1/10000 and 1/4096 octaves. If `math.log2` and `**` are right up to a fraction of such a step, saving a project with any such values (factors that are positive and not astronomically large or small, positions from 0.0 to 1.0) and opening the file gives every other value back exactly and these less than one step away; factors move towards 1, positions and lengths towards 0, the smallest positions become 0.0, and 0.0 stays 0.0. Opening and saving a file once moves a stored factor by at most one step, always towards 1, so that repeated saving settles. Positions read from a file are from 0.0 to 1.0, and others cannot be written.", "quantifier": "every project with channel parameters, every binary64 factor and position, every implementation of logarithm and power that is accurate to a fraction of a step", "why_tests_cant": "there are 2^64 binary64 numbers per field, and the results depend on the rounding of the C library under the interpreter; a test sees a few numbers on one machine", "anchors": ["pyflp/_adapters.py:Log2", "pyflp/_adapters.py:LogNormal", "pyflp/channel.py:ParametersEvent", "pyflp/channel.py:TimeStretching", "pyflp/channel.py:FX"]}
{"id": "C127", "title": "Events are equal exactly when their ids and visible contents are", "statement": "`==` of two events is true exactly when they have the same id and their values have the same visible content: numbers are compared as numbers (`True == 1`, `1.0 == 1`), structs field by field whatever the order of their fields, and fields whose names begin with an underscore do not count. `!=` is the opposite, both are symmetric and `==` is transitive; comparing with anything that is no event raises TypeError. An event equals one read from the same bytes unless a visible field is NaN. Equal events of a class that stores numbers, text or a struct are saved as the same bytes, but for hidden fields and the sign of zero.", "quantifier": "every two events of any class with any contents", "why_tests_cant": "contents are unbounded and mix integers, flags, floats, texts, bytes and nested records; hidden fields, signed zeros and NaN have to be found among them", "anchors": ["pyflp/_events.py:EventBase.__eq__", "pyflp/_events.py:EventBase.__ne__", "pyflp/_events.py:StructEventBase", "pyflp/_events.py:ListEventBase", "pyflp/channel.py:AutomationEvent", "pyflp/plugin.py:VSTPluginEvent"]}
{"id": "C128", "title": "List events behave like lists and are saved as they are", "statement": "Notes, controllers, playlist items and the other list events can be edited with the methods of lists: append, insert, pop, del, item assignment, clear, reverse, extend, *= and remove change the records as they would change a list, raise IndexError or ValueError where a list does, and `index`, `in` and `count` find records by visible content. Item objects fetched before go on showing their records. Saving writes exactly the records the event has now, and opening the file gives them back.", "quantifier": "every list event, every history of list methods and of assignments through item objects of any age", "why_tests_cant": "the histories and the lists are unbounded, and item objects of every age interact with every later change of the list", "anchors": ["pyflp/_events.py:ListEventBase", "pyflp/_models.py:ItemModel", "pyflp/arrangement.py:PlaylistEvent", "pyflp/pattern.py:NotesEvent", "pyflp/pattern.py:ControllerEvent"]}
{"id": "C129", "title": "Struct events behave like dictionaries with fixed keys and are saved as they are", "statement": "A struct event is a dictionary of its fields. Assigning to a key it lacks raises KeyError, to a field the event is too short to have PropertyCannotBeSet, and any other assignment changes exactly that field. `del`, `pop`, `popitem`, `clear`, `setdefault` and `update` behave as those of a dictionary with these assignments, so that only `|=` can add keys or fill missing fields. What is saved is the container assigned to `value` last, or else the dictionary; the order of its keys and extra keys do not matter, removed optional fields are left out and other removed fields make the save raise.", "quantifier": "every struct event and every history of dictionary operations and assignments to its value", "why_tests_cant": "histories are unbounded, and each operation depends on which of the fields are there, which are None and which container is current", "anchors": ["pyflp/_events.py:StructEventBase.__init__", "pyflp/_events.py:StructEventBase.__setitem__", "pyflp/_events.py:EventBase.__bytes__"]}
{"id": "C130", "title": "Numbers of another type are stored as the nearest number of the field's own type", "statement": "A field takes any Python number. A truth value in an integer field is stored as 0 or 1. An int, bool or float in a field of binary32 or binary64 floats (offsets of playlist items, arpeggiator time and gate, controller values, automation values and tensions, tempo-like float events, timestamps) is stored as the float of that type nearest to it (halfway cases go to the even bit pattern, the sign is kept); numbers the type has are stored exactly. Floats beyond the binary32 range and integers beyond the float range raise OverflowError; infinities and NaN stay what they are. After saving and opening, every such field holds that nearest number and everything else is as it was.", "quantifier": "every number (integers of any size, truth values, every binary32 and binary64 number), every integer and float field, every project whose other values can be stored", "why_tests_cant": "The integers are unbounded and there are 2^64 floats; whether rounding, ties, subnormals and overflow bounds are right can only be sampled by tests.", "anchors": ["/repo/pyflp/_events.py: F32Event, StructEventBase, ListEventBase", "/repo/pyflp/arrangement.py: PlaylistEvent, PLItemBase.offsets", "/repo/pyflp/channel.py: AutomationEvent, ParametersEvent, Arp", "/repo/pyflp/controller.py", "/repo/pyflp/pattern.py: ControllerEvent", "/repo/pyflp/project.py: TimestampEvent"]}
{"id": "C131", "title": "What the bytes of a file mean", "statement": "Which project a file stands for is fixed by its bytes: the 22 bytes in front hold format, channel count, PPQ and the size of the events at fixed places, least significant byte first; events follow one after the other as id, size (only for ids from 192 on, in groups of seven bits, least significant first) and data; only the last event may be cut short. Integers are two's complement of 1, 2 or 4 bytes, least significant byte first; floats are IEEE bits; truth values are zero or not; texts are ASCII or UTF-16LE (surrogate pairs outside the basic plane) without the NULs at their end; colours are four bytes; every named field of a struct event and of each item of a list event is at a fixed place of the data, listed in a table; automation clips, notebooks and VST data are read part by part as described. A file opens with exactly the project whose events these are, and otherwise not at all. Saving writes such a file, with the shortest sizes.", "quantifier": "every byte string as the data of every type of event, every file, every named field of every struct and list event, every project whose values can be stored", "why_tests_cant": "A test that saves and opens again cannot see a mistake made in both directions (byte order, order of two fields); sample files exercise few values of few fields.", "anchors": ["/repo/pyflp/__init__.py: parse, save", "/repo/pyflp/_events.py: EventBase subclasses, VARINT_*", "/repo/pyflp/channel.py: STRUCT of all events", "/repo/pyflp/arrangement.py: PlaylistEvent, TrackEvent", "/repo/pyflp/pattern.py: NotesEvent, ControllerEvent", "/repo/pyflp/mixer.py: MixerParamsEvent", "/repo/pyflp/plugin.py: STRUCT of all plugins, VSTPluginEvent", "/repo/pyflp/timemarker.py", "/repo/pyflp/project.py: TimestampEvent"]}
{"id": "C132", "title": "Heights of tracks lose at most one percent", "statement": "track.height reads the stored binary32 number as a percentage without its fraction. Assigning a text drops its last character, whatever it is, and stores a hundredth of the number before it as the nearest binary32 number, less than one percent away (for numbers up to 2^23). After saving and opening, the height is the percentage assigned if the stored number is not below it, and one less otherwise; multiples of 25 always come back, but many others (29%, 70%, 90%) come back one smaller. Everything else in the project comes back as it was. A text that is not a number before its last character cannot be written; infinities and NaN have no text.", "quantifier": "every bit pattern stored as a height, every text assigned, every project whose other values can be stored", "why_tests_cant": "Whether a percentage survives depends on two roundings of a quotient that has no finite binary expansion; the usual test values (100%, 50%) are just the ones that come back.", "anchors": ["/repo/pyflp/arrangement.py: HeightAdapter, TrackEvent, Track.height"]}
{"id": "C133", "title": "Warnings while opening and saving", "statement": "The warnings shown while a file is opened are exactly, in order, one for each VST plugin whose data begins with another byte than 8 or 10 and one for each playlist whose data is no whole number of 32- or 60-byte items; they do not change the result. A playlist is warned about exactly when its data is not saved completely (false of notes, controllers and mixer parameters, which lose bytes silently). Saving what was just opened never warns; after changes it warns once for each stretching time whose ticks are no multiple of five. Opening what was saved shows the plugin warnings again and no playlist warning. With warnings turned into exceptions exactly the files without warnings open, and saving never raises a warning: such times are silently left out and the fields behind them move.", "quantifier": "every file and every project, with and without warnings as exceptions", "why_tests_cant": "a test sees the warnings of a few files; that no other file warns, that every loss in a playlist is announced and that saving an unchanged project is silent are statements about all files", "anchors": ["pyflp/_events.py: ListEventBase.__init__", "pyflp/plugin.py: VSTPluginEvent.__init__", "pyflp/_adapters.py: LinearMusical._encode", "pyflp/__init__.py: parse, save"]}
{"id": "C134", "title": "An assignment overwrites the bytes of its field and no others", "statement": "Assigning a value that fits to a property stored in a field of fixed size (a number event, a field of a struct event, a field of a note, controller, playlist item or mixer parameter) gives a saved file of the same size as before in which only the bytes of this field differ; they are at the documented place of the field, meant the old value before and mean the new value now. Header, sizes, ids and all other fields and events keep their bytes and their places.", "quantifier": "every project that can be saved, every event, every item, every named field, every old and new value that fits; every property of the table that stands for a field", "why_tests_cant": "a test compares one edited file with one original; that no other byte can change has to hold for every file, field and value", "anchors": ["pyflp/_descriptors.py: StructProp.__set__, EventProp.__set__", "pyflp/_events.py: StructEventBase, ListEventBase, EventBase.__bytes__", "pyflp/__init__.py: save", "pyflp/_models.py: ItemModel.__setitem__"]}
{"id": "C135", "title": "Attempts to save to the same path, whatever became of each of them", "statement": "After any number of attempts to save any projects to one path, each of which returned, raised, failed with an I/O error or was cut short by a crash at any step, the file is the one from before all attempts, or the complete file of one of the projects, or it is refused by parse with HeaderCorrupted. Once a save has returned its complete file stays until another project that can be serialised is saved; and saving again repairs a damaged file.", "quantifier": "every list of attempts, every project, every crash point in each attempt, every content before", "why_tests_cant": "histories of crashes cannot be scheduled in unit tests", "anchors": ["pyflp/__init__.py: save", "pyflp/__init__.py: parse"]}
{"id": "C136", "title": "Writing back what was read, and undoing assignments", "statement": "Assigning to a property the value just read from it is accepted and changes nothing in the project; assigning another value and then the former one restores everything; and any number of assignments to any properties of any models is undone by assigning the former values in reverse order.", "quantifier": "all reachable states of a program, all models, all 200 and more declared scalar, field and flag properties of the table, all values the assignment accepts, all histories of assignments, and both behaviours of enum.IntFlag.__invert__", "why_tests_cant": "There are unboundedly many histories and flag words; the loss depends on bits that no sample project has and on the Python version.", "anchors": ["pyflp/_descriptors.py: EventProp, FlagProp._set, StructProp, PropBase.__get__, PropBase.__set__", "pyflp/_events.py: StructEventBase.__setitem__"]}
{"id": "C137", "title": "The order of assignments", "statement": "Assignments to different properties, or to properties of models without common events, can be made in any order: if a series of them is accepted, so is every rearrangement of it, and the resulting project is the same. Of two assignments to one property only the last one matters.", "quantifier": "all reachable states of a program, all finite series of assignments to properties of the table (including several flags of one word and several fields of one record), all rearrangements, and both behaviours of enum.IntFlag.__invert__", "why_tests_cant": "There are unboundedly many series and factorially many orders of each; flags of one word share their storage.", "anchors": ["pyflp/_descriptors.py: EventProp, FlagProp._set, StructProp, PropBase.__set__", "pyflp/_events.py: StructEventBase.__setitem__"]}
{"id": "C138", "title": "Damaged data of one event stays in that event", "statement": "If the data bytes of one event in a file are changed (their number stays), the opened project differs from the original in this event only, except that events whose type the event decides can differ too: texts after a version, plugin data after an internal name, and plugin data after a name that is itself read differently. If the event is neither a version nor an internal name, the changed file can be opened exactly if the new bytes mean a value of the event's type. Changes to the header fields never change the events.", "quantifier": "all files that can be opened, all events of the file, all replacements of the data by equally many bytes", "why_tests_cant": "Any of unboundedly many files, any place and any replacement; the parser carries state (version, internal name) from event to event, so a change could reach arbitrarily far.", "anchors": ["pyflp/__init__.py: parse", "pyflp/_events.py: EventBase, StrEventBase", "pyflp/plugin.py: get_event_by_internal_name"]}
{"id": "C139", "title": "Projects of any size behave as plain lists of events", "statement": "However many events a project has, and however many have been inserted and removed before: the event list of the project, and every view of it that is up to date, behaves under insert, pop, remove and the creation of views as a plain list does, with the same results and exceptions. In particular nothing changes when the library underneath begins to keep the events in several chunks (from 1000 events on), splits a chunk or merges two.", "quantifier": "all projects of any number of events, all histories of creating views and inserting and removing events through views that are up to date, all positions and ids", "why_tests_cant": "Tests have projects of a few hundred or thousand events and a handful of changes; the library splits a chunk at 2000 events and merges below 500, so that wrong behaviour at such a limit would show for certain sizes and histories only.", "anchors": ["pyflp/_events.py:EventTree.insert", "pyflp/_events.py:EventTree.pop", "pyflp/_events.py:EventTree.remove", "pyflp/_events.py:EventTree.__init__", "pyflp/_events.py:IndexedEvent", "pyflp/__init__.py:parse"]}
{"id": "C140", "title": "Events the library does not know, or one event more or less, do not disturb the others", "statement": "If to a file that opens one whole event is added between two others (with the size in the header adjusted), and it is not a version and not the internal name of a plugin, then the file opens exactly if the data of that event means a value of the type that belongs to its id at that place, and the project then has all former events unchanged and in order, plus the new one at its place. Leaving such an event out of a file that opens gives a file that opens with the same project minus that event. An added event with an id that the library does not know never prevents opening; its bytes are kept exactly and are written back, between the bytes of its neighbours, when the project is saved.", "quantifier": "all files that open, all places between two events, all ids other than 199 and 201, all sizes and contents of the data (any bytes for unknown ids)", "why_tests_cant": "Tests use files of known versions of FL Studio; files of later versions have new events at any place with any content.", "anchors": ["pyflp/__init__.py: parse, save", "pyflp/_events.py: EventBase, UnknownDataEvent"]}
{"id": "C141", "title": "Projects opened side by side do not affect each other", "statement": "A program may have any number of projects open, and may parse, save, insert, append and pop events, take views, assign event values and header values of them in any interleaving. As long as no event object is put into two projects, everything it sees of one project (what every action on it returns, raises or writes, and its header values, the events and their positions in the project and in each view taken from it) is what it would see had it opened only that project, and two interleavings with the same actions on that project show the same of it. If one event object is put into two projects, changing it in the one changes the other.", "quantifier": "all programs of any length over any number of projects, files, callbacks and values, all interleavings of their actions", "why_tests_cant": "Tests open one project per test; that nothing leaks between projects through shared references concerns every interleaving of every operation.", "anchors": ["pyflp/_events.py: EventTree.__init__, EventTree._recursive, EventTree.insert, EventTree.append, EventTree.pop, EventTree.divide, EventTree.group, EventTree.separate, EventTree.subtree, EventTree.subtrees", "pyflp/__init__.py: parse, save"]}
{"id": "C142", "title": "Threads working on projects of their own do not affect each other", "statement": "If every thread of a program opens and edits projects of its own (no event object is put into the projects of two threads), then for every way in which the threads are interrupted, what a thread sees of its project (results, exceptions, saved bytes, and in the end the header values and the events and positions in its trees) is what a program without threads would see that does the same to that project; and no thread is held up by the others. Two threads editing the same project are not protected from each other.", "quantifier": "all numbers of threads, all action sequences per thread (parse, save, make events, insert, append, pop, divide, subtrees, group, separate, subtree, assign, header), all files, all schedules at the granularity of single accesses to objects", "why_tests_cant": "There are unboundedly many schedules; a test runs a few of them and rarely meets the interleaving that matters.", "anchors": ["pyflp/__init__.py: parse, save", "pyflp/_events.py: EventTree (insert, append, pop, divide, subtrees, group, separate, subtree, _recursive), IndexedEvent"]}
{"id": "C143", "title": "Views that are out of date cannot lose, double or reorder events of a project", "statement": "However event trees are used, also through views that are out of date or overlap: the events of the project are the parsed events and those of the successful insert and append calls, less exactly one event for every successful pop or remove call; a call that raises leaves the events of the project as they are; and the parsed events that are still there keep their order.", "quantifier": "every parsed event list, every finite sequence of views, insertions, appends and removals through any trees made so far, successful or not", "why_tests_cant": "all histories of aliased views, in which the library searches lists that are no longer sorted", "anchors": ["pyflp/_events.py:EventTree.insert", "pyflp/_events.py:EventTree.pop", "pyflp/_events.py:EventTree._recursive", "pyflp/_events.py:EventTree.append"]}
{"id": "C144", "title": "Sample and data paths keep their meaning on Windows", "statement": "On Windows, for a path of one of the usual forms (\\folder\\file, C:\\folder\\file, C:file, folder\\file without colons, \\\\computer\\share\\folder\\file, with either kind of slash): after sample_path = p or data_path = p, reading the property gives a path equal to p, only that text has changed, and it can be saved if the characters of the path can. Reading a path that was written the way Windows programs write it and assigning it back changes nothing, on Windows as on other systems, where such a text is a single name.", "quantifier": "every reachable project, every view of a channel, every text of the given forms", "why_tests_cant": "all strings: prefixes, drives, shares, repeated and mixed slashes, dots", "anchors": ["pyflp/channel.py:Sampler.sample_path", "pyflp/project.py:Project.data_path"]}
{"id": "C145", "title": "The questions one can ask an event tree agree with each other", "statement": "For every event tree: id in tree, len, count, ids, get, first, iteration and repr describe the same list of events; pop and remove on a view that is up to date succeed exactly for positions -count(id) <= n < count(id), raise KeyError for ids that are not in the tree and IndexError for other positions, and then count and len go down by one in the view and in every tree above it; insert raises them by one; tree += event extends the tree.", "quantifier": "every state of every tree, every id and position", "why_tests_cant": "all event lists, all ids, all histories of views", "anchors": ["pyflp/_events.py:EventTree.__contains__", "pyflp/_events.py:EventTree.count", "pyflp/_events.py:EventTree.ids", "pyflp/_events.py:EventTree.get", "pyflp/_events.py:EventTree.first", "pyflp/_events.py:EventTree.pop", "pyflp/_events.py:EventTree.__iadd__"]}
{"id": "C146", "title": "Switching a flag changes one bit of the saved file", "statement": "Assigning True or False to a flag property of a model (reverse, clip, mono, locked, bypassed, slide of a note, ...) and saving gives a file that differs from the one saved without the assignment in at most one bit: the bit of this flag in the flag word of the event, which then says what was assigned. All other bits of the file and its size stay, including bits of the flag word that have no name.", "quantifier": "every reachable project, view, flag property, value, Python version, flag word and file", "why_tests_cant": "a test compares a few flags of a few files by reading them back through the same properties, which cannot see bits without a name; that no other bit of a file changes is a claim about every bit of every file", "anchors": ["pyflp/_descriptors.py:FlagProp", "pyflp/_events.py:StructEventBase", "pyflp/_events.py:EventBase.__bytes__", "pyflp/__init__.py:save", "pyflp/pattern.py: Note.slide, NotesEvent"]}
{"id": "C147", "title": "One edit changes the bytes of one event of the saved file", "statement": "Removing an event through any model or tree, inserting one, or assigning a value of any type and length to one, and saving, gives the file that was saved before with the bytes of this event cut out, put in or replaced at their place. All bytes of the other events stay as they are and in their order. Of the header, only the size of the event data changes, which is exact, and the number of channels, by one exactly if the event is that of a new channel. After a removal the project can be saved unless it was the last channel.", "quantifier": "every reachable project, view, event and value; every position in the file", "why_tests_cant": "a test diffs a few files; that an edit never touches a byte elsewhere, whatever the history of views and edits and the sizes of the events, is a claim about all files", "anchors": ["pyflp/__init__.py:save", "pyflp/_events.py:EventTree.pop", "pyflp/_events.py:EventTree.insert", "pyflp/_events.py:EventBase.__bytes__", "pyflp/_descriptors.py:PropBase.__set__"]}
{"id": "C148", "title": "Looking at a project does not change it", "statement": "However much of a project is looked at — its sub-models, loops over collections that are left early or not, subscripts, slices, list() and reversed(), membership tests, printing, queries of event trees, saving, whether they succeed or raise — the file that would be saved stays the same, every object obtained before still shows the same events with the same values, all its properties read the same, and later edits through such an object have the same result and the same effect as without looking.", "quantifier": "All states a program can reach, all objects that are up to date, any number and order of calls that read with any arguments, all edits (removal, insertion, assignment of any property) afterwards.", "why_tests_cant": "Reading makes event trees and registers them with the trees they are made of, so that it does change objects; a test can only look at a few calls and compare a few results, not the effect of all later edits.", "anchors": ["pyflp/_events.py:EventTree", "pyflp/_models.py:ModelReprMixin", "pyflp/project.py:Project", "pyflp/channel.py:ChannelRack", "pyflp/pattern.py:Patterns", "pyflp/arrangement.py:Arrangements", "pyflp/mixer.py:Mixer", "pyflp/plugin.py:PluginProp", "pyflp/_descriptors.py:NestedProp", "pyflp/__init__.py:save"]}
{"id": "C149", "title": "What was not edited survives any history of edits byte for byte", "statement": "After any history of views, removals, insertions, assignments and header changes of a project that was opened, if it can be saved, the event data of the file are one piece per event: of the events that were opened all that were not removed are there, each exactly once and in the old order, each one that was not assigned to with exactly the bytes it would have had when saved at the beginning, and beside them there are only events that were inserted. The same holds of the saved bytes when views that are out of date are used. Between files: an event whose class is read and written without change has the same bytes in the saved file as in the opened one, and so through any number of rounds of opening, editing and saving; events with ids the library does not know are always of that sort.", "quantifier": "All projects and files, all histories of views, removals, insertions, assignments and header changes, of any length, and any number of rounds of opening, editing and saving.", "why_tests_cant": "A test follows one history on one file; that no event is lost, doubled, reordered or altered as a side effect must hold for all histories.", "anchors": ["pyflp/_events.py:EventTree", "pyflp/_events.py:EventBase", "pyflp/__init__.py:save", "pyflp/_descriptors.py:EventProp"]}
{"id": "C150", "title": "Events copied into another project", "statement": "Events that follow each other in an opened project (a channel, a pattern, ...) are inserted one after the other before an event of another opened project. If no version event is among them, texts are encoded in the same way at both places (both versions from 11.5 on, or both older), plugin data is copied together with the internal name of its plugin, and the events behind the copies do not rely on a name in front of them, then the copies come to stand there and nothing else changes; if the project is saved (which succeeds for files of at most 100 MB together and 1 to 65535 channels), the file can be opened, with all events of both projects in this order, with the same ids and classes, and the same values for numbers, texts, colours, raw data and whatever the class can represent. Without the same encoding it fails: names from an old project are not read back.", "quantifier": "All pairs of files that can be opened, all runs of events, all places before an event.", "why_tests_cant": "A test copies particular events between two particular files; that the copies and the events around them are decoded as before must hold for all files, runs and places.", "anchors": ["pyflp/_events.py:EventTree.insert", "pyflp/__init__.py:parse", "pyflp/__init__.py:save"]}
{"id": "C151", "title": "Projects put together from events of opened files", "statement": "Let the events of a project come from files that can be opened, whichever, in any number and order (events can be inserted, copied, moved and removed at will), and let it be saved. The file opens as a project with exactly these events, with the same ids and classes, if and only if every event has the class that belongs to its place: texts the encoding of the closest version before them, plugin data the class of the closest internal name before it. Then format, resolution, number of channels and all numbers, texts, colours and raw data are the same too, and so is every value its class can represent. In particular events can be removed from an opened project in any way, as long as the version or name that decides about an event is not removed while the event stays.", "quantifier": "All sequences of events taken from any files that can be opened; all histories of views and removals.", "why_tests_cant": "A test takes particular events in a particular order; which arrangements survive saving and opening is a statement about all of them.", "anchors": ["pyflp/__init__.py:parse", "pyflp/__init__.py:save", "pyflp/_events.py:EventTree"]}
{"id": "C152", "title": "What has to be caught when a file is opened", "statement": "Whatever bytes a file holds, pyflp.parse returns a project or raises HeaderCorrupted, VersionNotDetected, InvalidEventChunkSize, an error for data that ends too early (construct's StreamError or struct.error), an error for a text that cannot be decoded (UnicodeDecodeError, or StringError of newer versions of construct), ValueError, OverflowError or IndexError. Each of these is raised for some file, so an except clause is enough exactly when it names Exception, or names ValueError, struct.error and a class of each of the other groups; pyflp.exceptions.Error alone is not enough. With warnings turned into exceptions, the first warning that would have been shown is raised instead, also for files that cannot be opened.", "quantifier": "every byte string that a file can hold, and every except clause", "why_tests_cant": "the set of exceptions is a statement about all byte strings; a test suite shows that some of them occur, never that no other one does", "anchors": ["pyflp/__init__.py:parse", "pyflp/exceptions.py:Error", "pyflp/_events.py:EventBase.__init__", "pyflp/plugin.py:VSTPluginEvent.__init__"]}
{"id": "C153", "title": "A damaged file fails at its first bad event", "statement": "A file with a right header raises an exception exactly if its data begins with whole events that can be read and then something follows that is no event: a text or data event whose size is missing (StreamError) or beyond 2^63 (OverflowError), a version that is no dotted sequence of numbers (ValueError), a text before any version (VersionNotDetected), a fixed-size event that the end of the file cuts (InvalidEventChunkSize), or data that the decoder of the event's class refuses (the exception of the decoder). The events before it and what follows it have no part in it, except that the version and plugin name before it determine its class. Cut where the damage begins, and with the size in its header corrected, the file opens with the header values it had and exactly the events before the damage (unless there are none).", "quantifier": "every byte string with a right header, every number of events before the damage, everything behind it", "why_tests_cant": "which exception comes first, and that nothing behind the first damage matters, are statements about all combinations of damages; tests damage one place at a time", "anchors": ["pyflp/__init__.py:parse", "pyflp/_events.py:EventBase.__init__"]}
