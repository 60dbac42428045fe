# Formal model of PyFLP in Lean 4 — design

Target: `demberto/PyFLP` at the pinned commit in `/repo` (pure Python). The
model lives in `lean/Verif/`, the English properties in `properties.jsonl`,
the status of each in `MANIFEST.json`, mutation tests in `seeded/LOG.jsonl`.

## 1. How the model is built

* Every Python function of interest is a small total Lean function, written
  branch by branch, with exceptions as values (`Except Exc α`). Each definition
  has a comment citing the file and lines in `/repo`.
* Python `int` is `Int`/`Nat` (unbounded), `bytes` is `List UInt8`, `str` is a
  list of code points (`List Nat`, surrogates included so that encoding errors
  are representable), `None` is `Option.none`.
* Binary floats are opaque bit patterns where the library only stores them
  (`c.Float32l`), and exact rationals with an explicit rounding function where
  the library computes with them (colours, track heights, tempo).
* `construct` combinators are modelled by a small first-order language
  (`Construct.lean`) with the semantics listed under *trusted base*.
* Property theorems are in `lean/Verif/Props/*.lean`, named `Cnn_...`; helper
  lemmas are elsewhere. Specifications used in the statements are in
  `lean/Verif/Spec.lean` (and at the top of the property files) and do not use the model's helpers.
* Where the code does not have the property users expect, the negation is
  proved with a concrete witness (`Cnn_..._refuted`) and the strongest correct
  statement is proved as `Cnn_..._partial`.

## 2. Layers

| layer | Lean modules (lemmas in brackets) | code modelled |
|---|---|---|
| values, exceptions | `Py` | Python built-ins used by the library, `exceptions.py` |
| binary codecs | `Bytes`, `Text`, `Utf8`, `Flt` [`FltLemmas`] | `struct`, `int.to_bytes`, `c.VarInt`, `str.encode/decode`, binary64 rounding |
| `construct` | `Construct` [`ConstructLemmas`, `StructLemmas`, `GreedyLemmas`, `NestedLemmas`] | the combinators used, `_adapters.py` |
| event types | `EventIds`, `IdNames`, `Structs`, `Event`, `EventEq`, `ListEvent`, `StructEvent` [`EventLemmas`, `KindLemmas`, `KindCanon`, `Heights`, `Settle`, `SettleKinds`, `Savable`, `SavedAs`, `Logs`, `Numbers`, `Errors`] | `_events.py:41-384`, all id enumerations and `STRUCT` tables |
| files | `File`, `SaveSteps`, `Warnings` [`FileLemmas`, `Chunks`, `ParseSpec`, `RoundTrip`] | `__init__.py` |
| event trees | `Tree`, `World` [`TreeOps`, `TreeLemmas`, `ViewLemmas`, `Loose`] | `_events.py:387-601`: `IndexedEvent`s shared by trees, event objects shared by `IndexedEvent`s |
| event trees with the lists of `sortedcontainers` | `SortedList`, `SortedTrees` | the same with chunked lists and bisection; proved to agree with `Tree` on views that are up to date (C139); used as they are for views that are not (C143) |
| paths on Windows | `WinPaths` | drive, root, names of `PureWindowsPath` (Python up to 3.11) |
| questions to event trees | `Queries` | `in`, `len`, `count`, `ids`, numbers of `repr`, `+=` |
| bits of files | `Props/Bits` | bit 0 is the lowest bit of the first byte; flag words are little endian as in C08 and C134 |
| edits in the file | `Props/Splices` | files before and after one edit |
| looking | `SaveCall`, `Props/Looking` | all calls that read, saving as a call on objects, and edits afterwards |
| survival | `Props/Survival`, `Props/Rounds` | histories of edits with a record of what was assigned, inserted and removed; rounds of opening, editing and saving |
| copies | `Props/Copies`, `Props/Assembled` | events of one project inserted into another (C150); projects put together from events of opened files (C151) |
| several opened projects in one process | `Process`, `ProcessLemmas`, `ProcessSim` | one memory for all; programs are lists of actions on named projects; objects are labelled with their project and one project is compared with itself alone (C141) |
| threads | `Threads`, `ThreadLemmas`, `ThreadExec`, `ThreadSim` | the methods of `EventTree`, `parse` and `save` as programs of single accesses to a shared memory; any schedule; run without interruption they do what `Tree` and `Process` say (C142) |
| descriptors | `Descriptors`, `Items`, `PropTable`, `Repr`, `Reprs` [`DescriptorLemmas`] | `_descriptors.py`, `_models.py`, every descriptor property of every model as a table |
| project | `ProjectModel`, `Times` [`ProjectLemmas`] | `project.py`, `controller.py` |
| collections | `Models`, `Collections`, `Slices`, `Equality`, `Loops`, `Lookups`, `Containers` [`ModelsLemmas`, `CollectionLemmas`] | `_models.py`, collections of `pattern.py`, `arrangement.py`, `mixer.py` |
| models | `Notes`, `Playlist`, `Tracks`, `MixerParams`, `Rack`, `ChannelProps`, `Automation`, `Colors`, `Plugins`, `Notebook`, `Texts`, `Prints` | `pattern.py`, `timemarker.py`, `arrangement.py`, `mixer.py`, `channel.py`, `plugin.py`, `types.py` |
| specifications | `Spec`, `TreeSpec`, `LayoutSpec`, `namespace Spec` of the property files | |
| declarations | `Declared` (generated by `tools/declared.py` from the text of `/repo/pyflp`) | event ids, flags, structs, properties, plugin classes as declared; `Props/Declared` proves that the tables of the model are these |
| examples | `Demo`, `namespace Demo` of the property files | |

## 3. Plan per property

| property | what is modelled | how it is proved |
|---|---|---|
| C01 | header unpack and the checks of `parse`, in order | case analysis on the checks; spec is a predicate on byte positions |
| C02 | `save` as byte list, `parse` header | length argument: declared size fixes the file length |
| C03 | `save` | computation on the produced bytes, sum of serialised sizes |
| C04 | `parse` loop, event constructors, `save` | induction on the event list carrying the (version, plugin-name) state |
| C05 | as C04 | induction on the remaining input, canonical-frame hypothesis |
| C06 | as C04 | stability of each event codec + C04 |
| C07 | `parse` loop | well-founded recursion on remaining length; induction |
| C08 | framing only | induction on the first sequence; prefix-freeness of one frame |
| C09–C11 | event constructors and `__bytes__` | case analysis; little-endian codec lemmas |
| C12, C19 | `save` as a transition system over the file system | case analysis / prefix argument with C02 |
| C13, C14, C15, C18 | dispatch in `parse` | invariant over the loop; table disjointness |
| C16 | ASCII / UTF-16-LE codecs | induction on the string |
| C17 | `VarInt` | induction on the number |
| C20–C25 | `EventTree` heap model (`IndexedEvent`s, parents, sorted lists) | invariant + refinement to lists, induction on operation sequences |
| C26–C29 | view-producing generators as list functions | induction on the list |
| C30, C31 | constructor and generators on the heap | computation, counterexamples |
| C32–C37 | descriptors over views sharing events | frame reasoning on the event heap |
| C38, C39 | all `STRUCT`s in the first-order construct language | generic codec theorem by induction on the field list, instantiated per table |
| C40 | `ItemModel.__setitem__` | induction on edit sequences |
| C41 | the `select` callbacks of `project.py` as state machines over a view | the state is a function of the events before; a rule-based specification |
| C42–C45 | header setters, version, licensee | frame reasoning on the event store, C04, induction on texts; C45 by well-typedness of the edited event list |
| C46 | tempo getter and setter with binary64 arithmetic as exact rationals and rounding | error bounds of rounding (`FltLemmas`), linear arithmetic |
| C47–C51 | `Patterns`: the grouping loop with its dictionary, lookups, `supports_slice` | the loop is refined to "number of the last `New` before"; induction on the event list |
| C52, C53 | `TimeMarker`, `EventTree.group` as used for markers | arithmetic on the stored number; counting events per block |
| C54, C55 | `Note.key`, `ItemModel` on lists with deletions | injectivity of decimal numerals; invariant over edit histories |
| C56 – C58 | `Arrangements`, `Arrangement.tracks` as views (`subtrees`, `divide`) | induction over the cut list of events, for every reachable world |
| C59 – C62 | `Mixer`, `Insert` iteration, lookup, `max_inserts` | as above; order of versions by linear arithmetic |
| C63 – C65 | `MixerParamsEvent`: list of containers and dictionaries built from it | invariant of the dictionary fold; invariant over assignment histories |
| C66 | `Insert.dock`, flag properties of `Insert` | bits of the flag word, C34 |
| C67 | `Arrangement.tracks` with playlist items | `Playlist`: pass over the tracks consuming the items; each record on the track it names, by invariant over C40's states |
| C68 | `ChannelPLItem.channel`, `PatternPLItem.pattern` setters | C40 edit step, then the reading of the record |
| C69 | `PLItemBase.offsets`, `muted` | C40 edit steps; `muted` is not a field: false |
| C70 | `Arrangements.loop_pos` | first event of the view, C32; atomicity false; `C70_exact`: all states |
| C71 | `Arrangements.max_tracks` | lexicographic comparison with 12.9.1; false for its builds |
| C72 | `ChannelRack.__iter__` with its trees, classes and groups | `divBy` of complete blocks; induction over the channels; four refutations |
| C73 | `ChannelRack.__getitem__`, `display_name` | linear search, first match |
| C74 | `Layer`, with the dictionary as the list of channels yielded so far | induction over the children; two refutations |
| C75 | table of all properties of all models (`PropTable`), descriptors as in C32 – C36 | type invariant of parsed projects, kept by assignments; generic over access kinds, the table checked once; false for `Arp` |
| C76 | the same table | frame lemma per access kind; disjointness of the table decided |
| C77 | the same table with save and parse | C04 on the edited event list; two refutations |
| C78 | `Channel.pan/volume` (`ChannelProps`): levels event, else old events | reading as a function of the events; assignment as `ChangedOnly`; saving with C04; refuted for old files, `C78_saved_exact` says when |
| C79 | `pitch_shift` | as C78 |
| C80 | `Reverb` on the packed number | arithmetic of the packing; two refutations; `C80_exact`: every stored number and assigned value |
| C81 | `Delay` on the pair event | direct, with frame and saving |
| C82 | `tracking`, `envelopes`, `lfos` | from the specification of `separate` |
| C83 | `sample_path`, `data_path`; `pathlib` for POSIX as root and names | normal form of paths; text of a path is read as the path |
| C84 | `Automation.__iter__/__getitem__`, `AutomationPoint`, `_get_position` on the stream; the addition of offsets is abstract (`FloatAdd`) | points of the record list; positions by induction over the stream |
| C85 | `_TrackColorProp`, `RGBA.from_bytes/__bytes__` with binary64 arithmetic | error bounds of `fl` and `round`; exactness for all 256 bytes |
| C86 | `ColorEvent`, `EventProp` | the bytes of a colour are those of its nearest shades; C04 |
| C87 | `_VSTPluginProp`, `VSTPluginEvent` | the first sub-event with the id; induction over the sub-events; refuted without it |
| C88 | `_VSTPluginProp` on structs | reading; assignments refuted: the number replaces the struct, saving raises |
| C89 | `_VSTFlagProp` | bits of `Nat`; `|= True` and `&= ~False` refute assignments except of bit 0 |
| C90 | `NestedProp.__get__`, `PluginProp.__get__` | `subtree` is a filter of the parent's `IndexedEvent`s; invariance under assignments; for completeness the ids of every declared `NestedProp` are compared with those of the properties of its class |
| C91 | `PluginProp.__set__` | loops over shared `IndexedEvent`s, by induction; five ways in which it fails are refutations |
| C92 | `PluginProp.__get__`, `get_event_by_internal_name`, the loop of `parse` | C18 and C90 composed through a table of the thirteen plugins |
| C93 | `EventModel.__eq__`, `EventTree.__eq__`, `IndexedEvent` comparison, `in` | positions are distinct in one project (tree invariant); three refutations |
| C94 | `supports_slice` with each collection | one induction over the loop, then the subscripts of each collection; three refutations |
| C95 | `Insert.__getitem__`, `Insert.__iter__` | from the slot views of C62; a refutation without parameters |
| C96 | `Mixer.__len__`, `Mixer.__iter__`, `max_slots` | counting over the parts of C59; four ways in which it fails are refutations |
| C97 | the class iterators and `groups` of `ChannelRack` | C72 filtered by the class its specification gives; `separate` |
| C98 | `created_on`, `time_spent`, `timedelta(days=float)` of CPython in rational arithmetic with explicit rounding | error bounds of `FltLemmas`; a calendar as specification of the epoch; large doubles are multiples of a step, which settles the ends of the ranges (`Props/Exact11`) |
| C99 | `RemoteController` | unfolding; a refutation for every word |
| C100 | the tempo getter over the three tempo events | error bounds of binary64 rounding; a refutation for thousandths without a whole tempo |
| C101 | the build event in the version setter | C44; a refutation for three-part versions |
| C102 | `LinearMusical` with the binary64 factor 0.2 | rounding never crosses a whole number |
| C103 | list events as heap objects shared by the item objects (`Items`), inside a project that is saved and parsed | edits are the fold of C40; each edit keeps a record valid; the size of a list event depends on the number of records only; then C03/C04 |
| C104 | `note.slide` on such a list, with `IntFlag` of both Python behaviours | C40 for isolation, `flag_bits` for the bits; refuted on Python ≥ 3.11 |
| C105 | `parse` and the declared id classes | well-typedness of parsed files (C04) and comparison with the generated tables; a refutation for `controller.py`, which `import pyflp` does not load |
| C106 | `licensee` getter of `ProjectModel`, the character tables as parameters (`UniEnv`) | induction over the stored text with the position as offset; refutations for characters outside the code |
| C107 | `Repr`: the loop of `ModelReprMixin.__repr__` over the names of the class (generated, `Declared.reprs`) and `getattr` | the values come from C52, C75, C80, C81, C84, C90, C99, C114; refutations from the `KeyError`s that `getattr(…, None)` lets through |
| C108 | `Spec.Session`: states reached from a parsed project by view creation, edits (`Spec.EditStep`, one constructor per setter) and removals | induction over the session; each edit keeps `Storable` (`StepOk`) and ids, types and order of events; then C03 and C04 |
| C109 | the same collections as C48, C51, C56 and C72, without hypotheses on the order of events | `Spec.cutBefore` (cut a list before the events that begin something) and `Spec.newNumbers`; induction over the events with the state of the loop |
| C110 | suspended generators of `divide`, `subtrees`, `separate`, `group` and `Patterns.__iter__`, resumed by a loop (`Loops.lean`) | every interleaving of `next()` with value changes, header changes and view creation (`Spec.ForLoop`); invariant: position and locals determine the lists still to come |
| C111 | the same generators when events are removed or inserted between two rounds | for patterns an invariant over `Spec.PatternLoop`; for channels refutations |
| C112 | `list(c)`, `bool(c)` of the collections (`Containers.lean`): CPython asks `len(c)` first | equality with the loop for arrangements, inserts, layers, tracks; exact condition for patterns, mixer, rack; refutations |
| C113 | `reversed(c)`: `len(c)`, then `c[n - 1]`, ..., `c[0]` up to an `IndexError` | a generic lemma on counting down with lookups that make views; exact results for patterns, arrangements, slots, mixer, rack; refutations |
| C114 | `Notebook`: descriptors of the notebook's values | first plugin data as in C87, pages as in C16; refutations for longer page texts and for pages by number |
| C115 | comparison operators of `FLVersion` | comparison with a lexicographic order on lists; refuted for a version with and without build number |
| C116 | `arrangement.tracks` as a whole: the version, the rack and the patterns that are iterated first, the playlist event with the size of its data, the trees of the tracks (`Tracks.lean`) | exact theorem: the result is a function (`tracksOf`) of the events of the arrangement, the rack and the patterns; corollaries for well-formed and for ill-formed projects |
| C117 | plain numbers given to fields of enum members (`LV.num`) | the record splits at the field; an optional field that cannot be built writes nothing; witness saved and parsed |
| C118 | `for model in self: if test: return model` over generators (`Lookups.lean`: `Search`, `RackSearch`) | induction over the search with the loop invariant of C110; termination by the number of models left |
| C119 | `Texts.lean`: the hand-written `__repr__` and `__str__` of patterns, markers, groups, channels, arrangements, tracks, inserts, notes, controllers, collections and the project as lists of pieces, with the exceptions they raise | each text is stated from the events of the model (`valueOf`), via the specifications of the properties and of the iterations they use; concrete witnesses where a text cannot be had or is wrong |
| C120 | `File.lean`, `Event.lean`: `parse` and `save`; `kind_step_parse` (`SettleKinds.lean`): what any event class saves of a value it has read can be read again | induction over the event stream with the two texts the class choice depends on (version, plugin name) as invariant; texts are saved unchanged, so the classes stay |
| C121 | as C120, iterated; `Heights.lean` (binary32/binary64 arithmetic of track heights), `Settle.lean` (primitives and structs of optional fields), `SettleKinds.lean` (all event classes) | every step is non-increasing in a measure: track heights as bit patterns (`height_shrinks`), the position of the last nonzero byte when an optional field cannot be written back and the following fields move up; lists, sub-events of VST data and event streams settle because their parts do |
| C122 | as C120; `kind_saves` (`Savable.lean`): every event class can write what it has read, in at most twice the space plus 64 bytes | per class; optional fields that cannot be written are left out, required ones can always be written back; sizes are added up over the event stream |
| C123 | rounds of open, edit (`Session`) and save (`Later`) | induction over rounds; values that fit still fit with the size recorded on reading (`valid_reread`) |
| C124 | `Slot.__repr__`, `VSTPlugin.__repr__`, `InsertEQ` and its bands as pieces (`Prints`) | C90 for the plugin, C87 for VST texts, C114 for notebooks, the table theorem behind C107 for native plugins; C63 for bands |
| C125 | the registry of members (`IdNames`): enumerations loaded so far, members made so far; a program is any list of lookups, calls and imports | induction over the program: a number has a member made for it just if it was looked up before an enumeration declared it; the declared numbers from `Declared` |
| C126 | `Log2` and `LogNormal` (`Construct`) with real numbers for the values of binary64 patterns (`Logs`: `f64Val`, `Accurate`), saving with other values read back (`SavedAs`) | the word written is the logarithm cut off, what is read is within ε of the word; event by event; `Ideal.env` (round down) is an accurate platform, on which 2^(1/10000) does not survive (it is irrational) |
| C127 | `==` of events (`EventEq`): numbers as exact amounts, `Container.__eq__` of construct with its hidden keys, nested values | an independent relation `SameValue` decided by the model; symmetric and transitive by induction; byte statement from injectivity of the float amounts and of the codecs |
| C128 | the methods of list events (`ListEvent`) on the object graph of `Items` (records as objects, list of references) | relation `Changed` per method over all histories `LReach`, C55 for stale items, C38/C103 for saving; re-reading exactly by the sizes 32 and 60 |
| C129 | struct events as `UserDict` with their own `__setitem__` (`StructEvent`): dictionary and assigned `value` apart, `c.Struct.build` by name | relation `Did` per operation over all histories `DictReach`; saving by induction over the fields |
| C130 | `struct.pack` and `float()` of numbers (`Flt`: `f64Bits`, `f32OfF64`, `f64OfF32`; `leafBuild`) on exact rationals | one rounding lemma for `P` fraction bits and least exponent `lo` (`Numbers`: `roundMag_nearest`, `roundMag_big`), instances for binary32 and binary64, then leaf by leaf, field by field, event by event, `SavedAs` |
| C131 | bytes of all event types and files, against a specification by relations (`LayoutSpec`) that uses no reading or writing function of the model, and literal tables of field places (`Props/Offsets`, taken from the `STRUCT` tables and their offset comments) | each reader equivalent to its relation (`leafParse_means`, `structParse_means`, `greedy_means`, `page_means`, `vstItem_means`, `framed_iff`), by induction over fields, items and bytes; places by induction over `Record` |
| C132 | `HeightAdapter` (`heightDecode`, `heightEncode`) on exact rationals with both roundings | product by 100 is exact (`fl_hundred`), relative error of binary32 rounding (`f32Bits_err`), truncation (`percent_read`), then leaf, record, event, file as for C126 |
| C133 | `Warnings`: the three calls of `warnings.warn` inside constructors, the parsing loop, struct building and `save`, with warnings shown or raised | one relation between the two modes, preserved by sequencing (`Modes`, `modes_bind`), then constructor, loop, file; for saving `Shows` and the record without odd times; reopening from C120's `opens_again` |
| C134 | saving with one field assigned, byte by byte: `structBuild`, `greedyBuild`, `toBytes`, `saveBytes` on two projects that differ in one field | induction over the fields: the bytes before and behind the field are the same; places as in C131; refinement of the property table |
| C135 | histories of attempts to save to one path (`SaveSteps`), each cut short anywhere | induction over the attempts from C12 and C19 |
| C136 | Writing back what was read, undoing assignments | `Props/Undo.lean`: for every property of the table an assignment of the value read, and an assignment followed by one of the former value, are computed on the event (value, field, or flag word bit by bit) and lifted to the world; exact condition (`C136_same`, `C136_undo`), induction over histories of assignments (`C136_history`); false on Python 3.11+ for flag words with unknown high bits (`C136_refuted`). |
| C137 | The order of assignments | `Props/Order.lean`: two assignments to disjoint parts of an event commute (fields of a record, flags of a word bit by bit), two assignments to different events commute; induction over `List.Perm` for whole series (`C137_order`); exact condition for overwriting (`C137_last`); false on Python 3.11+ for flags (`C137_refuted`). |
| C138 | Damaged data of one event stays in that event | `Props/Damage.lean`: place of an event's data in the file (`DataAt`), dependence of types on versions and internal names (`DecidedBy`, `DependsOn`); framing is unchanged by data of the same size; strong induction over positions: events that do not depend on the changed one decode to the same (`C138_reach`), exact outcome for ordinary events (`C138_local`), header (`C138_header`). |
| C139 | Projects of any size behave as plain lists of events | `SortedList.lean` has the algorithm of `sortedcontainers.SortedList` (chunks, last values, bisection, splitting and merging), `SortedTrees.lean` the event trees on top of it. Proved: bisection finds the place a search from the left finds in a sorted list (induction over the interval); the chunk found among the last values is the right one (induction over the chunks); splitting and merging keep values and invariant; hence refinement of every operation (`C139_same`), by induction over histories that keep up-to-date views sorted (`history_fair`). |
| C140 | One event more or less, and unknown events, do not disturb the others | No new model: `parseFile`, `saveBytes`. Specification in `Props/Foreign.lean` (`WholeEvents`, `Foreign`) and `LayoutSpec.lean`. Proved by splitting the frames at the place (induction over the whole events before it) and induction over the events after it: their types depend on the last 199 and 201 only, which are the same. |
| C141 | Projects opened side by side do not affect each other | `Process`: one memory with trees, event objects and any number of opened projects; programs are lists of actions on named projects. `ProcessLemmas`: every action changes only objects labelled with its project. `ProcessSim`: the project's part of the memory is simulated, up to numbering, by a process that opens only that project; induction over the program. The proviso (no event object in two projects) is shown to be needed by a witness. |
| C142 | Threads working on projects of their own do not affect each other | `Threads`: every method is a program of accesses (read or write one object); a schedule says which thread makes the next access; new objects get identities no other object has. `ThreadLemmas`, `ThreadExec`: a program run without interruption does what the functions of `Tree` and `Process` do. `ThreadSim`: the program with shared identities and the one in a memory of its own make the same accesses and touch only objects of the thread's project. `Props/Threads`: an invariant over all schedules relates each thread to its run alone; with C141 the result is what any program without threads sees. The statement for two threads in the same project is refuted (`C142_race_refuted`). |
| C143 | Views that are out of date cannot lose, double or reorder events of a project | On the model with chunked lists (`SortedTrees.lean`), for every sequence of uses of any trees (`Spec.useAll`). `Stale.lean`: bisection ends inside of the list even if it is not sorted, so `add` puts the value somewhere and `remove` takes out one value or raises; the ancestors of every view end with the project, which is therefore changed last and only by calls that succeed. Induction over the uses then gives that the events of the project and one event per successful removal are a permutation of the parsed and the inserted ones, and that the parsed ones keep their order. Refuted for the views themselves. |
| C144 | Sample and data paths keep their meaning on Windows | `WinPaths`: `pathlib`'s parser for Windows (Python up to 3.11): slashes, extended prefix, share, drive, root, names. Each usual form (`Spec.Usual`) is computed, the text of such a path has again one of the forms, and parsing it gives the path back. Other forms are refuted by witnesses. `Spec.Written` texts are their own normal form, so assigning what was read is the identity. `C144_says`, `C144_drive`, `C144_extended` and `C144_extended_share` say what the texts are read as. `C144_no_text` covers events whose value is no text. |
| C145 | The questions one can ask an event tree agree with each other | `Queries`: the methods on the list of the tree, in every state; `ids` as a list without repetitions, whose counts add up (induction over `eraseDups`). `pop` and `insert` from C21 and C24: one event less or more in the tree and each tree above. `+=` is refuted. |
| C146 | bits of the saved file under flag properties | `Spec.fileBit` numbers the bits of a file; the byte-wise effect of assignments (C134) together with all bits of the new flag word (C35) gives every bit of the new file: `C146_exact`, and one bit under the conditions of `C146_flag_partial`; false without them (`C146_refuted`); `C146_slide` for the notes of a pattern, from C104 and C134 |
| C147 | effect of one removal, insertion or assignment on the bytes of the saved file | `Spec.Spliced` compares two files without reference to the model; the events of the project after the edit (C21, C24, `events_setEv`) and the decomposition of saved files (C03) give it |
| C148 | what any number of reading calls leaves behind | `Spec.Look` has one constructor per call; `Spec.AsBefore` says what is the same; one lemma per call, composed from those about making a tree and registering it; for later edits a simulation between the two states |
| C149 | the pieces of the saved file after any history | `Spec.Edited` is `WReach` with a record of what was done; by induction the event objects below the number of opened events are those not removed, in order, and the unassigned ones are unchanged; then the pieces of `save` are matched with the objects |
| C150 | events of one opened file inserted into the project of another, saved and opened | `copyIn` is a run of `EventTree.insert`; `C24_run_fresh` gives the events; `decoded_moved`: what bytes mean depends on the text encoding and the last internal name only, so the copies and the rest decode as before; then the argument of C120/C122. The condition on encodings is shown to be needed |
| C151 | any sequence of events of opened files, saved and opened | each event brings bytes it was read from (`fromFile_decodes`); with the right classes they decode again event by event (`decoded_again`); conversely frames are cut uniquely and texts are stable, so equal classes after opening mean right classes before. For removals: `without`, the closest version and name of what is left are the old ones |
| C152 | the exceptions of opening any byte string (`parseFile`), and the classes of these exceptions (`exceptions.py:33-87`, built-in and construct classes) | the decoders raise five exceptions only (`kindParse_dec`), the event class found always allows the id (`resolve_facts`), so the constructor adds `InvalidEventChunkSize` only; induction over the loop with the invariant that the text type is unset, ASCII or UTF-16; a file for each exception; which of `StreamError` and `struct.error`, `UnicodeDecodeError` and `StringError` it is is left open, and a clause must catch both |
| C153 | failures of `parseFile` after the header | `FailsAt` and `BadEvent` list the ways to fail; one iteration fails exactly for bad events (`step_bad`: the ways exclude each other, and a bad event has no `DecodesTo`); induction over the loop with the state belonging to the events before (`StateAt`), forwards by the length of the data, backwards over the whole events |

## 4. Trusted base

1. Lean 4.33.0's kernel. No axioms are added; no `sorry`, `native_decide` or `bv_decide`. The axioms of each theorem are
   listed in section 7.
2. The correspondence between the Lean definitions and the Python text, by reading. Every definition cites the lines it
   models. The tables (event ids and classes, flags, flat structs, properties, plugin classes) are in addition compared with
   tables generated from the program text (`tools/declared.py`, `C14_declared`, `C38_declared`, `C40_declared`,
   `C75_declared`, `C75_nested`, `C87_declared`, `C89_declared`, `C92_declared`). The code is not run here. (Standard library behaviour that the model depends on was compared with CPython 3.11 on
   samples: `timedelta(days=float)`, `round`, float multiplication, `str.split/rstrip/decode`, `datetime` limits.)
3. The behaviour of libraries that are not part of the repository, recalled from their sources, since they are not installed:
   * `construct` 2.10: `Struct.parse` ignores trailing bytes; `Optional` gives `None` on any exception while parsing and
     writes nothing on any exception while building; `Flag` writes `00` for `None`; `VarInt` is built in its shortest form and
     parsed in any; `Prefixed` has exactly the given length; `PaddedString` pads with and strips NULs; a compiled `Bytes(n)`
     outside of `Optional` checks no length; `GreedyRange` stops at the first exception and rewinds. The model keeps apart whether
     construct fails, not always with which class: a compiled struct raises `struct.error` for a number where others raise
     `StreamError` or `FormatFieldError`, and newer versions raise `StringError` for texts (C152 takes both into account).
   * `construct_typed`: `EnumBase` makes members for unknown numbers, so that numbers are kept.
   * `sortedcontainers.SortedList`: the algorithms of `update`, `add`, `_expand`, `remove` and `_delete` as in `SortedList.lean`,
     from which it is proved (C139) that they act as on a sorted list; iteration goes through the chunks; `IndexedEvent`s compare by `r`.
   * `enum.IntFlag` as of Python 3.11: `~flag` has the known bits only; negative numbers for signed fields are lossy.
   * Rich comparison asks a subclass on the right-hand side first; `in` without `__contains__` iterates.
4. Floating point: bit patterns where numbers are only stored; rationals with explicit round-to-nearest-even where the program
   computes (`Flt`), without overflow and underflow; the functions the model has no definition of (logarithm and power in
   `LogNormal` and `Log2`, addition of automation positions) are parameters (`FloatEnv`, `FloatAdd`), and the theorems hold for
   all of them under the stated laws.

## 5. What is modelled and what is not

| file | modelled | not modelled |
|---|---|---|
| `__init__.py` | `parse`, `save` (as a function, and as a sequence of steps that may be cut short by a crash) | `fastenum` (Python < 3.11); file handles: a file is its bytes |
| `_adapters.py` | all adapters; arithmetic of `LogNormal` and `Log2` abstract, or (C126) any that is accurate to a fraction of a step | |
| `_descriptors.py` | all | the `Protocol` classes; class access (`ins is None`) |
| `_events.py` | all event classes, `EventEnum` as its numbers and registered types, and (`IdNames`) the members its lookups give, `EventTree`, `==` of events, list and struct events as lists and dictionaries | `__repr__` of events; `copy()`, slices and `+` of list events and `copy()`, `\|` of struct events (they raise) |
| `_models.py` | `ItemModel`, `EventModel.__eq__`, `supports_slice`, `ModelReprMixin.__repr__` (attributes and values) | the text `repr` makes of a value, `__hash__` |
| `arrangement.py` | all structs and properties, tracks, arrangements, playlist items, selections; `__repr__` as pieces | how a value is written as text |
| `channel.py` | all structs and properties; rack, layers, automation clips, envelopes, trackings, delay, reverb, sample path; `__repr__`/`__str__` as pieces | how a value is written as text; `pathlib` of Python 3.12 and later on Windows (the model is that of 3.8-3.11) |
| `controller.py` | all | |
| `exceptions.py` | which exception is raised | messages; the class hierarchy is used where something is caught |
| `mixer.py` | all structs and properties; parameters, inserts, slots, sends, equaliser; texts of the mixer, of inserts, slots and equalisers as pieces | how a value is written as text |
| `pattern.py`, `timemarker.py` | all; `__repr__`/`__str__` as pieces | how a value is written as text |
| `plugin.py` | all structs; wrapper and native plugin properties, VST plugin data and properties, Fruity NoteBook 2, `PluginProp`; `__repr__` as pieces | how a value is written as text |
| `project.py` | all; `__str__` as pieces | how a value is written as text; `__repr__` |
| `types.py` | `RGBA`, `FLVersion` and its order, `MusicalTime` as used | |

Simplifications, also stated at the definitions:

* Python `int` digits: the 4300 digit limit of `int(str)` is not modelled. Signalling NaNs (whose bits may change when
  loaded) are excluded; colours computed from NaNs are not modelled.
* Equality of values is equality in the model; `True == 1` and `1.0 == 1` are not, except in `EventEq.lean` (C127), where numbers
  are compared by amount. `Container.__eq__` of construct 2.10 (keys that begin with `_` do not count) is recalled, not read.
* A number `.int` in a field of enum members (`StdEnum`) is a member; a plain `int` given to such a field is `.num` (C117). An enum
  member given to another number field is `.int` too: it is packed like the number.
* Numbers of another type in fields are converted as `struct.pack` and `math.log2` do (C130). Not modelled: `math.log2` of integers
  beyond the floats (they raise in the model), `int(obj)` of floats and texts in `FourByteBool` fields, other objects with
  `__float__` or `__index__`, flag sets given as `bool`.
* Outside `Loops.lean` and `Lookups.lean` generators are run to their end: iterators that are left early create fewer views than the model (views are
  never visible in the project: each collection theorem shows that iterating does not change it).  `Loops.lean` models them as
  suspended frames; C110 shows that loops which only change values hand out the views that running to the end gives, C118 that lookups
  which stop early find the same.
* Warnings are recorded at every call of `warnings.warn` (`Warnings.lean`); the default filter shows repetitions once.
* Several projects in one process are modelled in `Process`, where the actions of a program happen one after the other, and in `Threads`, where they happen in threads. There an access reads or writes one `IndexedEvent`, one `EventTree` or one event object, and threads are interrupted between accesses. What `parse` and `save` do with bytes of their own (`parseFile`, `saveBytes`) is one step between accesses: it touches no object of another thread. The one thing all threads share there, the table in which `EventEnum._missing_` (`_events.py:82-101`) remembers members for unknown IDs, is not modelled: `setdefault` gives every thread the same immutable member. Values inside event objects are replaced as a whole.
* In `Process` an assignment to an event stores the value as it is; what values the setters accept is the matter of `Event` and `Descriptors`.

## 6. Findings

Where a property is false of the code, `Cnn_..._refuted` proves its negation, either for a concrete project or for all
projects of a kind, and `Cnn_..._partial` proves what is left of it. By severity for a user:

* Saving loses or changes data: heights of playlist tracks drift (C06); a number out of the range of an optional field is
  dropped and later fields move (C37), and so is a plain number assigned to a property with enum members (C117); a missing boolean is written (C39); `channel_count` is ignored and any number is taken as `format` (C42); changing the
  version across 11.5 changes the encoding (C45); the tempo read and assigned may drop by a thousandth (C46; done again and again it keeps its whole part and settles); the build number stays behind (C101); clearing a flag
  loses unknown bits (C35, C104); `directx` and `internal_name` (C77); pan of old files makes saving fail (C78); controller events are raw unless `pyflp.controller` is imported (C105); VST text
  properties are lost, number properties destroy the data, flags are ignored (C87-C89); plugins assigned share events, and assigning one whose data was removed raises KeyError after the name has been changed (C91);
  a crash while saving may lose the old file (C19).
* Views: double removal (C23), repeated insertion (C24: an event inserted before one that itself came by an insertion through the view is put behind it in the view and before it in the project; runs at consecutive positions are fine), `append` (C25: raises on every tree with events, and puts the event at the start of the project when called on an empty view), children registered twice (C30), an empty topmost
  tree (C31), stale items (C55); removing or inserting an event inside a loop over the channels makes the loop raise `KeyError`, and
  removing an event of a later pattern leaves it in that pattern (C111).
* Reading raises: models without events (C33), equaliser and slot parameters (C63, C64), `Arp` (C75), `muted` of playlist items
  (C69), racks without or with incomplete channels (C72), layers (C74), tracks of version 12.9.1 (C71), timestamps out of range
  (C98), thousandths without a tempo (C100), `KeyError` for patterns and arrangements in unusual order (C48, C51, C53, C56, C57), slots of inserts without
  parameters (C95).
* Reading gives the wrong thing: plugin events shared by rack and mixer (C41), outputs of inserts (C59), made-up tracks and
  slots (C58, C62), routes (C65), items of the playlist (C67, C68), `max_inserts` and `max_slots` (C61, C96), `len(mixer)` (C96),
  `mix` of the reverb (C80), equality of models (C93), slices (C50, C94), remote controllers (C99), `reversed()` of the mixer, which visits
  nothing, and of racks and layers with gaps in the numbers (C113), `bool()` of inserts (C112).
* `FruityNotebook2.pages` is documented as a dict from page numbers to contents and is a list in the order of the file, with an
  entry for the end mark (C114); a text longer than the old one makes the project unsavable unless `length` is changed too.
* Reading raises: the licensee of unusual files (C106), printing arpeggiators and delays without modulation (C107), `list()` and `bool()` of
  patterns and mixers that a loop visits (C112).
* Comparing a version that has a build number with the same version without one raises `TypeError` (C115).
* Assigning raises or half-succeeds: keys of notes by name (C54), selections (C70).
* A playlist whose data has a size that is a multiple of neither 32 nor 60 keeps its records in `value`, but iterating over
  the event, and so over the tracks of its arrangement, raises `AttributeError`: `ListEventBase.__init__` only warns and does
  not set `data` (C116).  A pattern without a `New` event, or a channel without a type or a group, makes the tracks of
  all arrangements unavailable (C116).

- C119: `repr(pattern)` and `str(project.patterns)` raise `KeyError` if an event precedes the first `New` event (`C119_pattern_refuted`).
  `str(marker)` of a marker without a position event says that it is a signature, although its `type` is `None`
  (`C119_marker_refuted`).  `repr(project.arrangements)` counts `New` events and so can say one more than iterating yields
  (`C119_arrangements_refuted`).  `repr(arrangement)` raises whatever iterating over its tracks raises: an arrangement with one clip of
  a removed channel, or with a playlist of odd size, cannot even be printed (`C119_arrangement`).
- C132: of the track heights from 0% to 200%, 98 do not survive a save: `"29%"` comes back as `"28%"`, `"70%"` as `"69%"`,
  `"90%"` as `"89%"`, because reading truncates (`C132_usual`).  Assigning `"50"` without a percent sign stores 5%.
- C06, C121: a track height drifts by one percent per save while the stored binary32 number reads as less than the whole
  percentage it was written from (0.39 -> 38% -> 37%), but it never grows, so the drift ends (`height_shrinks`,
  `C121_saving_settles`).
- C120, C121: an optional field that was read but cannot be written is left out on saving and all later fields of the event
  move up: the flags of an envelope holding -2^31, or a stretch multiplier so small that `2 ** x` is 0 (`math.log2` raises).
  The saved file still opens (`C120_saved_opens`).
- C122: a file without channels opens but cannot be saved: `save` asks for `len(project.channels)`, which raises
  `NoModelsFound` (`C122_save_fails_exact` and the example beside it).
- C124: `repr(insert.eq)` always raises `KeyError` (its `size` asks for `_kw["param"]`, the key is `params`); `repr(slot)` raises
  `AttributeError` when its VST plugin has no name or no vendor; a band of the equaliser cannot be printed unless gain, frequency and
  resonance are all recorded.
* **C38** `C38_flags_refuted`: the flags of envelopes and LFOs are stored as a signed number. If its highest bit is set, the
  `IntFlag` made of it is another number (`0xFFFFFFFF` becomes 63), and saving writes that one; for `0x80000000` the number does
  not fit any more, the field is left out and all others move. `C38_envelope_exact`: these are the only envelopes that are not
  saved as they were read. Reading is right all the same (`C34_stored`).
* **C125** `C125_late_refuted`: an id that is looked up before the module that declares it is imported keeps the number as its
  name. This happens to the ids 226 and 227 of `pyflp.controller`, which `pyflp` does not import.
  `C125_strict_refuted`: `enum.py` of CPython 3.11.10 (line 1116) refuses `EventEnum(n)` with `TypeError`, since `EventEnum` has no
  members of its own; on such an interpreter nothing can be opened. The model follows the interpreters before that change.
- C126: opening and saving a file may move stretch factors: the logarithm is cut off instead of rounded, so a factor whose
  power was rounded towards 1 loses a step of 1/10000 octave (`C126_exact_refuted` on an idealised platform; with CPython 3.11 on this
  machine `int(10000 * math.log2(2 ** (k / 10000))) != k` for 8318 of the 40001 numbers from -20000 to 20000, for example -19998).
  Rounding instead of cutting off would make it exact.
- C127: `==` of events ignores hidden fields and signs of zero, so that equal events may be saved as different bytes
  (`C127_bytes_refuted`), and a float event with NaN differs from itself (`C127_self_refuted`). Comparing an event with anything
  else raises TypeError instead of giving False, and events cannot be hashed (`__eq__` without `__hash__`).
- C128: assigning through an item object after something was inserted before it overwrites the inserted record
  (`C128_stale_refuted`); a playlist of the old layout (32 bytes per item) that reaches a multiple of 15 items is read back as a
  playlist of the new layout with fewer, garbled items (`C128_playlist_refuted`).
- C129: `update` is not atomic (`C129_update_refuted`); after `event.value = x` the dictionary methods, and so all properties of
  models, edit a container that is not saved (`C129_assigned_refuted`); deleting an optional field shifts the fields behind it
  (`C129_removed_refuted`); `|=` circumvents the checks of `__setitem__`.
- C133: notes, automation of patterns and mixer parameters lose the bytes behind their last whole record without a warning
  (`C133_silent_refuted`); only playlists announce it. With warnings turned into exceptions, saving a stretching time whose ticks
  are no multiple of five raises nothing: `c.Optional` swallows the warning, the four bytes are left out and every field behind them
  moves (`C133_strict_saving_refuted`), so that this setting turns a harmless message into a damaged file.

- **C136** (writing back what was read changes nothing) is false on Python 3.11 and later: `fx.clip = fx.clip` with flags `0x8000` writes `0`, and `fx.clip = False; fx.clip = True` turns `0x8004` into `4`. The cause is the one of C35 (`~flag` of an `IntFlag` has only the known bits), the effect is that an assignment cannot be undone.

- **C137** (only the last assignment to a property matters) is false on Python 3.11 and later: `fx.clip = False; fx.clip = True` turns flags `0x8004` into `4`, `fx.clip = True` alone leaves them.
* C142: `EventTree.insert` reads positions, makes room and then adds the event in separate steps. Two threads inserting into the same project can both make room for the same position; then two events have the same position and the next one is not used (`C142_race_refuted`). Threads need a lock of their own if they share a project.
* **C143** A `pop` or `remove` that raises `ValueError` (the event was removed through another view before) has taken the event
  out of the view it was called on and out of the views between it and the project; only the project's own events are unchanged.
  `C143_view_refuted`.
* **C144** On Windows, `sample_path = Path("//m/")` stores `\\m\`, which is read as `\m`; `Path("./c:")` is stored as `c:`, a
  drive.  On other systems a stored Windows path is read as one name (`C144_elsewhere`): `.name` is the whole text.
* **C145** `tree += event` raises `IndexError` on a tree with events; on an empty one it adds the event, but `__iadd__` returns `None`
  and so the name (or attribute) on the left is `None` afterwards: `C145_iadd_refuted`.
* C146: from Python 3.11 on `FlagProp` clears, with the bit of the flag, all bits of the flag word above the highest named one, and these bits are gone from the saved file (`C146_refuted`: `channel.fx.clip = False` with the flag word 516).
* C150: events copied from a project older than 11.5 into a newer one keep their class, so texts are written with one byte per character and read with two: names are garbled or the file cannot be opened (`C150_refuted`). Nothing warns.
* C152: a damaged file with a right header raises errors of construct and of Python that `pyflp.exceptions.Error` (and `DataCorrupted`, "base class for parsing exceptions") does not cover; the documentation of `Error` warns of it, `parse` documents `HeaderCorrupted` and `VersionNotDetected` only. `C152_handlers` has the clauses that are enough.

## 7. Axioms of each theorem

As printed by `#print axioms` for the theorems of `MANIFEST.json` (`PyFLP.` omitted):

* no axioms (8 theorems): C14_declared, C14_no_double_claim, C61_max_inserts_refuted, C64_slot_params_refuted, C96_max_slots_refuted, C126_names, C129_assigned_refuted, C129_update_refuted
* `propext` (19 theorems): C33_readonly, C35_flag_frame_refuted, C55_stale_item_refuted, C65_routes_refuted, C66_declared, C67_tracks_refuted, C71_max_tracks_refuted, C75_declared, C76_apart, C87_declared, C89_declared, C93_classes_refuted, C94_open_refuted, C107_declared, C124_bands, C124_eq_refuted, C130_names, C136_refuted, C137_refuted
* `Quot.sound`, `propext` (45 theorems): vst_flags, vst_properties, C08_framing_injective, C08_framing_prefix_free, C17_padded_prefix, C23_double_removal_refuted, C24_repeated_insert_refuted, C25_append_refuted, C31_root_refuted, C38_declared, C40_declared, C42_channel_count, C42_ppq, C48_len_iid_refuted, C50_index, C50_slice_exact, C50_slice_partial, C51_current_refuted, C55_exact, C57_index, C60_index, C70_set_refuted, C93_membership_refuted, C94_arrangements_partial, C94_exact, C94_mixer_refuted, C94_points_partial, C94_slots_partial, C95_index, C95_params_refuted, C97_other_refuted, C112_list, C113_track, C119_pattern_refuted, C119_project, C125_late_refuted, C125_same, C125_strict_refuted, C125_value, C129_get, C129_keys, C129_operations, C134_placed, C143_view_refuted, C146_placed
* `Classical.choice`, `Quot.sound`, `propext` (514 theorems): C01_header_exact, C02_cut_or_padded_detected, C03_save_succeeds, C03_saved_header, C04_parsed_wellTyped, C04_save_parse, C05_parse_save, C06_resave_idempotent_partial, C06_resave_idempotent_refuted, C07_event_count, C07_parse_iff, C09_constructor_guards, C10_exact, C10_size_partial, C10_size_refuted, C11_int_exact, C12_failing_save, C13_unknown_preserved, C14_registration_order, C15_text_by_version, C15_version_not_detected, C16_text_roundtrip, C17_length_prefix, C18_plugin_data_type, C19_crash_detected, C19_done_complete, C19_exact, C19_never_lost_refuted, C19_progress, C20_root_list, C21_history, C21_pop_through_view, C22_removals_compose, C23_exact, C23_overlap_partial, C24_exact, C24_insert_partial, C24_run, C24_run_fresh, C25_append_partial, C25_exact, C26_divide, C27_subtrees, C28_group, C29_views_are_selections, C30_registered_once_refuted, C31_exact, C31_root_partial, C32_event_property, C32_event_property_writable, C32_saved_file, C33_absent_partial, C33_exact, C33_idless_refuted, C34_flag_readback, C34_stored, C35_exact, C35_flag_frame_partial, C36_struct_property, C37_exact, C37_optional_dropped_refuted, C37_required_rejected_partial, C37_witness_refuted, C38_automation_roundtrip, C38_color_roundtrip, C38_envelope_exact, C38_flags_refuted, C38_list_roundtrip, C38_routing_roundtrip, C38_struct_partial, C39_exact, C39_inside_exact, C39_truncated_partial, C39_truncated_refuted, C40_edit_step, C40_edits, C41_arrangements, C41_channels, C41_disjoint, C41_markers_split, C41_mixer, C41_patterns, C41_rack_mixer_exact, C41_rack_mixer_refuted, C41_rest_exact, C42_channel_count_refuted, C42_format, C42_format_refuted, C42_format_unreadable, C42_reread, C43_licensee, C43_licensee_alnum, C43_licensee_settable, C44_version, C44_version_refused, C45_exact, C45_version_change_partial, C45_version_change_refuted, C46_rewrite_accepted, C46_rewrite_partial, C46_rewrite_refuted, C46_rewrite_settles, C46_stored, C46_tempo, C46_tempo_accepted, C46_tempo_unchanged, C47_partition, C47_patterns, C48_exact, C48_len_iid_partial, C49_collision_refuted, C49_exact, C49_iid_set, C50_name, C50_slice_refuted, C51_current_partial, C51_exact, C52_marker, C53_exact, C53_markers_partial, C53_markers_refuted, C54_key_name_changes_refuted, C54_key_name_refuted, C54_key_number, C54_name_exact, C54_names_distinct, C55_deletion_partial, C56_arrangements_partial, C56_arrangements_refuted, C56_disjoint_partial, C56_exact, C57_current, C57_current_partial, C57_name, C57_negative, C58_exact, C58_tracks_partial, C58_tracks_refuted, C59_exact, C59_inserts_partial, C59_output_refuted, C59_rest_refuted, C60_name, C61_exact, C61_max_inserts_partial, C62_exact, C62_slots_partial, C62_slots_refuted, C63_eq_partial, C63_eq_refuted, C63_params_partial, C63_params_refuted, C64_items_partial, C65_exact, C65_routes_partial, C66_dock, C67_tracks_partial, C68_refuted, C68_set_channel_partial, C68_set_pattern_partial, C69_muted_read_refuted, C69_muted_refuted, C69_offsets, C70_exact, C70_get, C70_set_partial, C71_max_tracks_partial, C72_channels_partial, C72_empty_refuted, C72_exact, C72_incomplete_refuted, C72_last_channel_refuted, C72_leading_refuted, C73_get, C74_layer_partial, C74_missing_refuted, C74_subscript_refuted, C75_arp_refuted, C75_assignable_partial, C75_names, C75_nested, C75_programs_partial, C75_readable_partial, C75_typed, C76_independent, C77_directx_refuted, C77_internal_name_refuted, C77_saved_partial, C78_get, C78_saved_exact, C78_saved_partial, C78_saved_refuted, C78_set, C79_get, C79_set, C80_exact, C80_get, C80_mix_partial, C80_mix_refuted, C80_type_partial, C80_type_refuted, C81_delay, C82_envelopes, C82_tracking, C83_data_path, C83_sample_path, C83_text_refuted, C84_none, C84_read, C84_set, C84_stream, C85_get, C85_none, C85_set, C86_colour, C87_get, C87_lost_refuted, C87_nodata, C87_set_partial, C88_assign_refuted, C88_get_partial, C89_get_partial, C89_set_exact, C89_set_partial, C89_set_refuted, C90_complete, C90_lasting, C90_nested, C90_plugin, C91_base_refuted, C91_dataless_refuted, C91_half_refuted, C91_lost_refuted, C91_saved_partial, C91_set_partial, C91_shared_refuted, C91_unnamed, C92_declared, C92_named, C92_plugin_class, C93_exact, C93_membership_partial, C93_projects_refuted, C93_same_project_partial, C94_channels_refuted, C94_children_refuted, C95_name, C96_events_refuted, C96_exact, C96_inserts_partial, C96_len, C96_limit_refuted, C96_max_slots_partial, C97_classes_partial, C97_exact, C97_groups, C98_created_on_partial, C98_exact, C98_none, C98_raises_refuted, C98_time_spent_partial, C98_timestamp, C99_none_partial, C99_parameter_refuted, C100_fine, C100_fine_refuted, C100_tempo_partial, C101_build_kept, C101_build_partial, C101_build_refuted, C102_exact, C102_time_partial, C102_time_refuted, C103_read, C103_saved, C104_exact, C104_slide_partial, C104_slide_refuted, C105_class_partial, C105_controllers_refuted, C106_exact, C106_latin_refuted, C106_licensee_partial, C106_licensee_refuted, C107_arp_refuted, C107_delay_refuted, C107_fx, C107_items, C107_notebook, C107_points, C107_remote, C107_repr_partial, C108_saves_partial, C108_session_partial, C110_channels, C110_loop, C110_round, C111_insert_refuted, C111_patterns_partial, C111_remove_refuted, C111_stale_refuted, C112_insert_refuted, C112_list_partial, C112_mixer_refuted, C112_patterns_refuted, C112_truth, C113_arrangements_exact, C113_layer_refuted, C113_mixer_exact, C113_mixer_refuted, C113_patterns_exact, C113_patterns_partial, C113_rack_exact, C113_rack_partial, C113_rack_refuted, C113_slots_partial, C114_active, C114_editable, C114_get, C114_no_data, C114_no_page, C114_numbers_refuted, C114_pages, C114_text_partial, C114_text_refuted, C115_build_refuted, C115_order_partial, C115_text, C115_total, C116_tracks_exact, C116_tracks_partial, C116_tracks_refuted, C117_plain_refuted, C117_witness_refuted, C118_arrangements, C118_channels, C118_current, C118_mixer, C118_patterns, C118_search, C118_slots, C119_arrangement, C119_arrangements_refuted, C119_channel, C119_counts, C119_group, C119_insert, C119_items, C119_marker, C119_marker_refuted, C119_pattern, C119_patterns, C119_track, C120_saved_opens, C121_saving_settles, C122_opened_saves, C122_save_fails_exact, C123_history_partial, C123_saves_partial, C124_band_exact, C124_slot_exact, C125_called, C125_classes_apart, C125_declared_partial, C125_exact, C125_opened, C126_exact_refuted, C126_factor_again, C126_position_range, C126_position_refused, C126_saved, C126_settles, C127_bytes_exact, C127_bytes_partial, C127_bytes_refuted, C127_copy_exact, C127_equivalence, C127_exact, C127_ne, C127_numbers, C127_self_exact, C127_self_refuted, C127_specials, C128_items_exact, C128_methods, C128_playlist_refuted, C128_reread_exact, C128_saved_partial, C128_search, C128_stale_refuted, C129_assigned_partial, C129_built_exact, C129_named, C129_removed_refuted, C129_saved_exact, C130_again, C130_double, C130_double_refused, C130_logs, C130_saved, C130_single, C130_single_refused, C130_single_refused_int, C130_special, C130_truth, C131_automation, C131_automation_readable, C131_event, C131_field, C131_file, C131_item, C131_saved, C131_vst, C131_written, C132_exact, C132_not_written, C132_read, C132_refuted, C132_saved, C132_usual, C132_write, C133_lists, C133_opening, C133_opening_fails, C133_playlist, C133_reopened, C133_saving, C133_silent_refuted, C133_strict_opening, C133_strict_saving, C133_strict_saving_refuted, C133_unchanged, C134_field, C134_history, C134_item, C134_number, C134_opened, C134_property, C135_attempts, C135_last, C135_repair, C136_history, C136_programs, C136_same, C136_undo, C137_last, C137_order, C138_everywhere, C138_header, C138_local, C138_reach, C139_insert, C139_pop, C139_project, C139_same, C140_added, C140_kept, C140_left_out, C140_saved, C140_unknown, C141_alone, C141_interleaved, C141_shared_refuted, C142_race_refuted, C142_threads, C143_conserved, C143_number, C143_order, C143_raise, C144_data_path_partial, C144_drive, C144_elsewhere, C144_extended, C144_extended_share, C144_no_text, C144_refuted, C144_sample_path_partial, C144_says, C144_unchanged, C145_iadd_refuted, C145_insert, C145_pop, C145_queries, C146_exact, C146_flag_partial, C146_refuted, C146_slide, C147_assign, C147_insert, C147_property, C147_remove, C148_edits, C148_looking, C148_save, C148_saved, C149_file, C149_out_of_date, C149_rounds, C149_rounds_unknown, C149_survives, C150_copied, C150_encoding, C150_refuted, C150_saves, C151_exact, C151_removed, C151_reopened, C152_exact, C152_handlers, C152_opening, C152_strict, C153_first, C153_recover, C153_rest
