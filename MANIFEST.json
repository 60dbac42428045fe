{
 "claims": [
  {
   "property": "C01",
   "status": "proved",
   "theorems": [
    "PyFLP.C01_header_exact"
   ],
   "note": ""
  },
  {
   "property": "C02",
   "status": "proved",
   "theorems": [
    "PyFLP.C02_cut_or_padded_detected"
   ],
   "note": ""
  },
  {
   "property": "C03",
   "status": "proved",
   "theorems": [
    "PyFLP.C03_saved_header",
    "PyFLP.C03_save_succeeds"
   ],
   "note": "The header count is the number of channel starts, as the code computes it."
  },
  {
   "property": "C04",
   "status": "proved",
   "theorems": [
    "PyFLP.C04_save_parse",
    "PyFLP.C04_parsed_wellTyped"
   ],
   "note": ""
  },
  {
   "property": "C05",
   "status": "proved",
   "theorems": [
    "PyFLP.C05_parse_save"
   ],
   "note": "Canonical payloads are characterised by canonPayload (KindCanon.lean)."
  },
  {
   "property": "C06",
   "status": "partial",
   "theorems": [
    "PyFLP.C06_resave_idempotent_refuted",
    "PyFLP.C06_resave_idempotent_partial",
    "PyFLP.C121_saving_settles"
   ],
   "note": "False as stated: track heights drift on every save. Proved for settled payloads. Saving again may change the file more than once, but only finitely often (C121)."
  },
  {
   "property": "C07",
   "status": "proved",
   "theorems": [
    "PyFLP.C07_parse_iff",
    "PyFLP.C07_event_count"
   ],
   "note": "Termination is the totality of parseFile."
  },
  {
   "property": "C08",
   "status": "proved",
   "theorems": [
    "PyFLP.C08_framing_injective",
    "PyFLP.C08_framing_prefix_free"
   ],
   "note": ""
  },
  {
   "property": "C09",
   "status": "proved",
   "theorems": [
    "PyFLP.C09_constructor_guards"
   ],
   "note": ""
  },
  {
   "property": "C10",
   "status": "partial",
   "theorems": [
    "PyFLP.C10_size_partial",
    "PyFLP.C10_size_refuted",
    "PyFLP.C10_exact"
   ],
   "note": "False for raw/structured classes used with an id below 192. C10_exact: size is right exactly if the payload has the size that belongs to the id."
  },
  {
   "property": "C11",
   "status": "proved",
   "theorems": [
    "PyFLP.C11_int_exact"
   ],
   "note": ""
  },
  {
   "property": "C12",
   "status": "proved",
   "theorems": [
    "PyFLP.C12_failing_save"
   ],
   "note": ""
  },
  {
   "property": "C13",
   "status": "proved",
   "theorems": [
    "PyFLP.C13_unknown_preserved"
   ],
   "note": ""
  },
  {
   "property": "C14",
   "status": "proved",
   "theorems": [
    "PyFLP.C14_registration_order",
    "PyFLP.C14_no_double_claim",
    "PyFLP.C14_declared"
   ],
   "note": "C14_declared: the tables are those of the program text (generated)."
  },
  {
   "property": "C15",
   "status": "proved",
   "theorems": [
    "PyFLP.C15_text_by_version",
    "PyFLP.C15_version_not_detected"
   ],
   "note": ""
  },
  {
   "property": "C16",
   "status": "proved",
   "theorems": [
    "PyFLP.C16_text_roundtrip"
   ],
   "note": ""
  },
  {
   "property": "C17",
   "status": "proved",
   "theorems": [
    "PyFLP.C17_length_prefix",
    "PyFLP.C17_padded_prefix"
   ],
   "note": ""
  },
  {
   "property": "C18",
   "status": "proved",
   "theorems": [
    "PyFLP.C18_plugin_data_type"
   ],
   "note": ""
  },
  {
   "property": "C19",
   "status": "partial",
   "theorems": [
    "PyFLP.C19_crash_detected",
    "PyFLP.C19_done_complete",
    "PyFLP.C19_never_lost_refuted",
    "PyFLP.C19_exact",
    "PyFLP.C19_progress"
   ],
   "note": "Detection is proved; the expectation that the old file is never lost is refuted. C19_exact gives exactly the contents the target can have at a crash; C19_progress: save never gets stuck."
  },
  {
   "property": "C20",
   "status": "proved",
   "theorems": [
    "PyFLP.C20_root_list"
   ],
   "note": ""
  },
  {
   "property": "C21",
   "status": "proved",
   "theorems": [
    "PyFLP.C21_pop_through_view",
    "PyFLP.C21_history"
   ],
   "note": " C21_history: the same after any history of insertions and removals, also repeated ones through the same view."
  },
  {
   "property": "C22",
   "status": "proved",
   "theorems": [
    "PyFLP.C22_removals_compose"
   ],
   "note": ""
  },
  {
   "property": "C23",
   "status": "partial",
   "theorems": [
    "PyFLP.C23_double_removal_refuted",
    "PyFLP.C23_overlap_partial",
    "PyFLP.C23_exact"
   ],
   "note": "False as stated: popping the same event through two overlapping views removes another event. Proved for views whose lists are refreshed by the first removal (ancestors). C23_exact says what the second removal does in every case: it deletes the event that follows in the project if the lowest common tree of both views lists that event, and raises ValueError and leaves the project alone otherwise."
  },
  {
   "property": "C24",
   "status": "partial",
   "theorems": [
    "PyFLP.C24_insert_partial",
    "PyFLP.C24_repeated_insert_refuted",
    "PyFLP.C24_exact",
    "PyFLP.C24_run",
    "PyFLP.C24_run_fresh"
   ],
   "note": "Proved for an insertion through any up-to-date view, after any earlier insertions and removals through whatever views; a second insertion through the same view is refuted because each ancestor gets its own index wrapper. C24_exact: any single insertion through an up-to-date view in any history of insertions and removals, in every case (before the former event, but behind it in views that got it by an insertion). C24_run, C24_run_fresh: runs of insertions at consecutive positions keep view and project in the same order."
  },
  {
   "property": "C25",
   "status": "partial",
   "theorems": [
    "PyFLP.C25_append_refuted",
    "PyFLP.C25_append_partial",
    "PyFLP.C25_exact"
   ],
   "note": "False as stated: append on a non-empty tree raises IndexError. C25_exact: append in every case; on an empty view the event goes to the start of the project."
  },
  {
   "property": "C26",
   "status": "proved",
   "theorems": [
    "PyFLP.C26_divide"
   ],
   "note": ""
  },
  {
   "property": "C27",
   "status": "proved",
   "theorems": [
    "PyFLP.C27_subtrees"
   ],
   "note": ""
  },
  {
   "property": "C28",
   "status": "proved",
   "theorems": [
    "PyFLP.C28_group"
   ],
   "note": "Ids given to group are distinct."
  },
  {
   "property": "C29",
   "status": "proved",
   "theorems": [
    "PyFLP.C29_views_are_selections"
   ],
   "note": ""
  },
  {
   "property": "C30",
   "status": "partial",
   "theorems": [
    "PyFLP.C30_registered_once_refuted"
   ],
   "note": "False as stated: every view is registered exactly twice, for every tree and call."
  },
  {
   "property": "C31",
   "status": "partial",
   "theorems": [
    "PyFLP.C31_root_refuted",
    "PyFLP.C31_root_partial",
    "PyFLP.C31_exact"
   ],
   "note": "False for an empty topmost tree; proved for every non-empty one. C31_exact gives root for every tree and call: with an empty topmost tree the view is its own root."
  },
  {
   "property": "C32",
   "status": "proved",
   "theorems": [
    "PyFLP.C32_event_property",
    "PyFLP.C32_event_property_writable",
    "PyFLP.C32_saved_file"
   ],
   "note": "Event properties in every reachable state of a program over shared event trees."
  },
  {
   "property": "C33",
   "status": "partial",
   "theorems": [
    "PyFLP.C33_absent_partial",
    "PyFLP.C33_readonly",
    "PyFLP.C33_idless_refuted",
    "PyFLP.C33_exact"
   ],
   "note": "Holds for properties with event ids; properties without ids raise IndexError on a model without events. C33_exact gives, for every descriptor and every state, what reading and assigning do when the event is missing and which event they use otherwise."
  },
  {
   "property": "C34",
   "status": "proved",
   "theorems": [
    "PyFLP.C34_flag_readback",
    "PyFLP.C34_stored"
   ],
   "note": "Both Python semantics of ~IntFlag, both polarities, events with a number and structured events. C34_stored: the flags of envelopes show the stored bits, for every stored word, also negative ones."
  },
  {
   "property": "C35",
   "status": "partial",
   "theorems": [
    "PyFLP.C35_flag_frame_partial",
    "PyFLP.C35_flag_frame_refuted",
    "PyFLP.C35_exact"
   ],
   "note": "False on Python 3.11 and later: clearing a flag loses unknown bits above the highest member bit. C35_exact gives every bit of the new word for both kinds of Python."
  },
  {
   "property": "C36",
   "status": "proved",
   "theorems": [
    "PyFLP.C36_struct_property"
   ],
   "note": ""
  },
  {
   "property": "C37",
   "status": "partial",
   "theorems": [
    "PyFLP.C37_required_rejected_partial",
    "PyFLP.C37_optional_dropped_refuted",
    "PyFLP.C37_witness_refuted",
    "PyFLP.C37_exact"
   ],
   "note": "False for optional fields: an out-of-range number is dropped and later fields move. C37_exact gives the bytes of an event with an assigned number and which assignments are refused, dropped or never saved."
  },
  {
   "property": "C38",
   "status": "partial",
   "theorems": [
    "PyFLP.C38_struct_partial",
    "PyFLP.C38_list_roundtrip",
    "PyFLP.C38_automation_roundtrip",
    "PyFLP.C38_routing_roundtrip",
    "PyFLP.C38_color_roundtrip",
    "PyFLP.C38_declared",
    "PyFLP.C38_flags_refuted",
    "PyFLP.C38_envelope_exact"
   ],
   "note": "Fails for numbers that an adapter does not keep (C38_flags_refuted: envelope flags with bit 31; track heights: C06_resave_idempotent_refuted). C38_struct_partial: all data whose fields are canonical; C38_envelope_exact: for envelopes the exact condition."
  },
  {
   "property": "C39",
   "status": "partial",
   "theorems": [
    "PyFLP.C39_truncated_refuted",
    "PyFLP.C39_truncated_partial",
    "PyFLP.C39_exact",
    "PyFLP.C39_inside_exact"
   ],
   "note": "False as stated: a missing boolean is written as 00. C39_exact says what is written after any cut between fields (the same bytes and a zero for each missing boolean), C39_inside_exact after a cut inside a field (the rest of the cut field is dropped)."
  },
  {
   "property": "C40",
   "status": "proved",
   "theorems": [
    "PyFLP.C40_edits",
    "PyFLP.C40_edit_step",
    "PyFLP.C40_declared"
   ],
   "note": "Object model with shared containers."
  },
  {
   "property": "C41",
   "status": "partial",
   "theorems": [
    "PyFLP.C41_patterns",
    "PyFLP.C41_channels",
    "PyFLP.C41_arrangements",
    "PyFLP.C41_mixer",
    "PyFLP.C41_markers_split",
    "PyFLP.C41_disjoint",
    "PyFLP.C41_rack_mixer_refuted",
    "PyFLP.C41_rack_mixer_exact",
    "PyFLP.C41_rest_exact"
   ],
   "note": "Membership rules, order and the marker split are proved; disjointness is proved for all pairs except rack and mixer, where it is false: events of effect plugins are in both (C41_rack_mixer_refuted). C41_rack_mixer_exact and C41_rest_exact say exactly which events the rack and the mixer share and which belong to no part."
  },
  {
   "property": "C42",
   "status": "partial",
   "theorems": [
    "PyFLP.C42_ppq",
    "PyFLP.C42_channel_count",
    "PyFLP.C42_reread",
    "PyFLP.C42_format",
    "PyFLP.C42_format_unreadable",
    "PyFLP.C42_channel_count_refuted",
    "PyFLP.C42_format_refuted"
   ],
   "note": "False for channel_count: save writes the number of channels instead of the assigned number. False for format: a number that is not a format is accepted, and the saved file cannot be parsed."
  },
  {
   "property": "C43",
   "status": "proved",
   "theorems": [
    "PyFLP.C43_licensee",
    "PyFLP.C43_licensee_alnum",
    "PyFLP.C43_licensee_settable"
   ],
   "note": "The exact set of texts that read back is characterised."
  },
  {
   "property": "C44",
   "status": "proved",
   "theorems": [
    "PyFLP.C44_version",
    "PyFLP.C44_version_refused"
   ],
   "note": ""
  },
  {
   "property": "C45",
   "status": "partial",
   "theorems": [
    "PyFLP.C45_version_change_refuted",
    "PyFLP.C45_version_change_partial",
    "PyFLP.C45_exact"
   ],
   "note": "False across 11.5, where the text encoding changes; proved when both versions are on the same side. C45_exact gives the exact condition under which re-reading shows what was saved after the version was assigned."
  },
  {
   "property": "C46",
   "status": "partial",
   "theorems": [
    "PyFLP.C46_tempo",
    "PyFLP.C46_tempo_accepted",
    "PyFLP.C46_tempo_unchanged",
    "PyFLP.C46_rewrite_refuted",
    "PyFLP.C46_rewrite_partial",
    "PyFLP.C46_stored",
    "PyFLP.C46_rewrite_accepted",
    "PyFLP.C46_rewrite_settles"
   ],
   "note": "Everything but the last sentence is proved; assigning the tempo that was read can lower the stored value by a thousandth (16.002 becomes 16.001), never more, and keeps whole tempos. C46_stored says what the three tempo events hold after every accepted assignment. However often the tempo is written back, it is accepted, keeps its whole part, never rises and settles after finitely many times (C46_rewrite_settles)."
  },
  {
   "property": "C47",
   "status": "proved",
   "theorems": [
    "PyFLP.C47_patterns",
    "PyFLP.C47_partition"
   ],
   "note": ""
  },
  {
   "property": "C48",
   "status": "partial",
   "theorems": [
    "PyFLP.C48_len_iid_partial",
    "PyFLP.C48_len_iid_refuted",
    "PyFLP.C48_exact"
   ],
   "note": "Holds when every pattern or time marker event comes after a New event; false otherwise (witness). C48_exact says what len and iids are for every project and state."
  },
  {
   "property": "C49",
   "status": "proved",
   "theorems": [
    "PyFLP.C49_iid_set",
    "PyFLP.C49_collision_refuted",
    "PyFLP.C49_exact"
   ],
   "note": "For numbers in use the two patterns are merged (witness). C49_exact: every number, with the merging of patterns when the number is taken."
  },
  {
   "property": "C50",
   "status": "partial",
   "theorems": [
    "PyFLP.C50_index",
    "PyFLP.C50_name",
    "PyFLP.C50_slice_partial",
    "PyFLP.C50_slice_refuted",
    "PyFLP.C50_slice_exact"
   ],
   "note": "Index and name in full; slices with two non-negative bounds. Open slices raise TypeError, negative bounds differ from list slices (witness). C50_slice_exact states slicing for all bounds and steps."
  },
  {
   "property": "C51",
   "status": "partial",
   "theorems": [
    "PyFLP.C51_current_partial",
    "PyFLP.C51_current_refuted",
    "PyFLP.C51_exact"
   ],
   "note": "Holds when every pattern or time marker event comes after a New event; KeyError otherwise (witness). C51_exact gives the result for every project and state."
  },
  {
   "property": "C52",
   "status": "proved",
   "theorems": [
    "PyFLP.C52_marker"
   ],
   "note": ""
  },
  {
   "property": "C53",
   "status": "partial",
   "theorems": [
    "PyFLP.C53_markers_partial",
    "PyFLP.C53_markers_refuted",
    "PyFLP.C53_exact"
   ],
   "note": "Holds when all markers have events with the same ids; otherwise names are misattributed (witness). C53_exact says which events each marker shows for every project and state."
  },
  {
   "property": "C54",
   "status": "partial",
   "theorems": [
    "PyFLP.C54_names_distinct",
    "PyFLP.C54_key_number",
    "PyFLP.C54_key_name_refuted",
    "PyFLP.C54_key_name_changes_refuted",
    "PyFLP.C54_name_exact"
   ],
   "note": "Numbers in full. Assigning a name always raises ValueError, and may change the key nevertheless. C54_name_exact states the name and the refusal for every stored key."
  },
  {
   "property": "C55",
   "status": "partial",
   "theorems": [
    "PyFLP.C55_deletion_partial",
    "PyFLP.C55_stale_item_refuted",
    "PyFLP.C55_exact"
   ],
   "note": "Holds for items fetched after the last deletion; false for older ones (witness). C55_exact says what items of any age show and change."
  },
  {
   "property": "C56",
   "status": "partial",
   "theorems": [
    "PyFLP.C56_arrangements_partial",
    "PyFLP.C56_arrangements_refuted",
    "PyFLP.C56_disjoint_partial",
    "PyFLP.C56_exact"
   ],
   "note": "Holds if a Current event follows the last arrangement and all New events; false without it (the last arrangement is lost). Disjointness holds always. C56_exact says which arrangements are shown for every project and state."
  },
  {
   "property": "C57",
   "status": "proved",
   "theorems": [
    "PyFLP.C57_index",
    "PyFLP.C57_name",
    "PyFLP.C57_current",
    "PyFLP.C57_current_partial",
    "PyFLP.C57_negative"
   ],
   "note": "C57_current is the statement for stored positions; C57_current_partial says in addition which events the arrangement has, where C56 holds. C57_current covers every position a file can hold; C57_negative covers negative positions, which only an assignment to the event can store."
  },
  {
   "property": "C58",
   "status": "partial",
   "theorems": [
    "PyFLP.C58_tracks_partial",
    "PyFLP.C58_tracks_refuted",
    "PyFLP.C58_exact"
   ],
   "note": "Without track records a track without a record is yielded. C58_exact says what the tracks are for every arrangement and state."
  },
  {
   "property": "C59",
   "status": "partial",
   "theorems": [
    "PyFLP.C59_inserts_partial",
    "PyFLP.C59_output_refuted",
    "PyFLP.C59_rest_refuted",
    "PyFLP.C59_exact"
   ],
   "note": "Output events are shown by the next insert, events behind the last Output event by none; everything else holds. C59_exact says what the inserts are for every mixer and state."
  },
  {
   "property": "C60",
   "status": "proved",
   "theorems": [
    "PyFLP.C60_index",
    "PyFLP.C60_name"
   ],
   "note": "iid of the insert at position k is k-1."
  },
  {
   "property": "C61",
   "status": "partial",
   "theorems": [
    "PyFLP.C61_max_inserts_partial",
    "PyFLP.C61_max_inserts_refuted",
    "PyFLP.C61_exact"
   ],
   "note": "Never too small; too large for most old versions. C61_exact states every case."
  },
  {
   "property": "C62",
   "status": "partial",
   "theorems": [
    "PyFLP.C62_slots_partial",
    "PyFLP.C62_slots_refuted",
    "PyFLP.C62_exact"
   ],
   "note": "Without slot events one slot is made up. C62_exact says what the slots are for every insert and state."
  },
  {
   "property": "C63",
   "status": "partial",
   "theorems": [
    "PyFLP.C63_params_partial",
    "PyFLP.C63_params_refuted",
    "PyFLP.C63_eq_partial",
    "PyFLP.C63_eq_refuted"
   ],
   "note": "False for inserts without any record (KeyError) and for equaliser bands without a record (KeyError)."
  },
  {
   "property": "C64",
   "status": "partial",
   "theorems": [
    "PyFLP.C64_slot_params_refuted",
    "PyFLP.C64_items_partial"
   ],
   "note": "slot.enabled and slot.mix raise in every project (C64_slot_params_refuted). What is true: the event's own index of slot parameters has exactly the last record of each parameter of each slot (C64_items_partial)."
  },
  {
   "property": "C65",
   "status": "partial",
   "theorems": [
    "PyFLP.C65_routes_partial",
    "PyFLP.C65_routes_refuted",
    "PyFLP.C65_exact"
   ],
   "note": "True if sends are stored contiguously from insert 0 on, before other parameters, with no more flags than sends; false otherwise. C65_exact says what routes is without any restriction."
  },
  {
   "property": "C66",
   "status": "proved",
   "theorems": [
    "PyFLP.C66_dock",
    "PyFLP.C66_declared"
   ],
   "note": ""
  },
  {
   "property": "C67",
   "status": "partial",
   "theorems": [
    "PyFLP.C67_tracks_partial",
    "PyFLP.C67_tracks_refuted",
    "PyFLP.C116_tracks_exact"
   ],
   "note": "Proved when every record stands for an existing channel or pattern; false (refuted) otherwise: KeyError, and no track can be read. Versions 12.9.1 with a build number: C71."
  },
  {
   "property": "C68",
   "status": "partial",
   "theorems": [
    "PyFLP.C68_set_channel_partial",
    "PyFLP.C68_set_pattern_partial",
    "PyFLP.C68_refuted"
   ],
   "note": "Proved for channel iid <= pattern_base and pattern iid >= 1; false for all others (refuted for every item)."
  },
  {
   "property": "C69",
   "status": "partial",
   "theorems": [
    "PyFLP.C69_offsets",
    "PyFLP.C69_muted_refuted",
    "PyFLP.C69_muted_read_refuted"
   ],
   "note": "offsets proved in full; muted is no field of the record: reading raises KeyError for every parsed item, and assigning never changes the saved bytes."
  },
  {
   "property": "C70",
   "status": "partial",
   "theorems": [
    "PyFLP.C70_get",
    "PyFLP.C70_set_partial",
    "PyFLP.C70_set_refuted",
    "PyFLP.C70_exact"
   ],
   "note": "Proved if both ends are present in the event; with a selection event of 4 bytes the assignment raises after changing the start (refuted). C70_exact covers every state."
  },
  {
   "property": "C71",
   "status": "partial",
   "theorems": [
    "PyFLP.C71_max_tracks_partial",
    "PyFLP.C71_max_tracks_refuted"
   ],
   "note": "Proved for all versions other than 12.9.1.x; for these max_tracks and the iteration over tracks raise TypeError (refuted)."
  },
  {
   "property": "C72",
   "status": "partial",
   "theorems": [
    "PyFLP.C72_channels_partial",
    "PyFLP.C72_last_channel_refuted",
    "PyFLP.C72_empty_refuted",
    "PyFLP.C72_leading_refuted",
    "PyFLP.C72_incomplete_refuted",
    "PyFLP.C72_exact"
   ],
   "note": "Holds of views that consist of complete channels. False of the last channel (it also shows plugin events of the mixer), of racks without channels (KeyError), of events before the first New, of channels without a type or with a negative group number. C72_exact says what iteration gives, and where it ends with which exception, for every view."
  },
  {
   "property": "C73",
   "status": "proved",
   "theorems": [
    "PyFLP.C73_get"
   ],
   "note": ""
  },
  {
   "property": "C74",
   "status": "partial",
   "theorems": [
    "PyFLP.C74_layer_partial",
    "PyFLP.C74_missing_refuted",
    "PyFLP.C74_subscript_refuted"
   ],
   "note": "Holds if all children have been yielded before. False (KeyError) if a child is missing, or if the layer was taken from the rack by number and a child comes behind it."
  },
  {
   "property": "C75",
   "status": "partial",
   "theorems": [
    "PyFLP.C75_readable_partial",
    "PyFLP.C75_assignable_partial",
    "PyFLP.C75_programs_partial",
    "PyFLP.C75_typed",
    "PyFLP.C75_arp_refuted",
    "PyFLP.C75_names",
    "PyFLP.C75_declared",
    "PyFLP.C75_nested"
   ],
   "note": "For all 218 properties of the table, which has all declared ones (C75_declared), except those of Arp, which raise KeyError whatever the file (refuted). Not in the table: Track.color, FruityNotebook2, VST properties, item properties."
  },
  {
   "property": "C76",
   "status": "proved",
   "theorems": [
    "PyFLP.C76_independent",
    "PyFLP.C76_apart"
   ],
   "note": "C76_independent for every two properties that are apart or models without a common event; C76_apart checks the whole table of 217 properties: all are apart but the listed synonyms."
  },
  {
   "property": "C77",
   "status": "partial",
   "theorems": [
    "PyFLP.C77_saved_partial",
    "PyFLP.C77_directx_refuted",
    "PyFLP.C77_internal_name_refuted"
   ],
   "note": "Holds for values that fit and any property but the internal name. False for directx (bit outside the flag word) and for internal_name (retypes plugin data)."
  },
  {
   "property": "C78",
   "status": "partial",
   "theorems": [
    "PyFLP.C78_get",
    "PyFLP.C78_set",
    "PyFLP.C78_saved_partial",
    "PyFLP.C78_saved_refuted",
    "PyFLP.C78_saved_exact"
   ],
   "note": "Reading and assigning proved. Saving is false for files with the old one-byte events: the setter writes the number to all old events, and saving raises (C78_saved_refuted); proved otherwise. C78_saved_exact says for every number and every channel without levels event whether saving works."
  },
  {
   "property": "C79",
   "status": "proved",
   "theorems": [
    "PyFLP.C79_get",
    "PyFLP.C79_set"
   ],
   "note": "Includes saving."
  },
  {
   "property": "C80",
   "status": "partial",
   "theorems": [
    "PyFLP.C80_get",
    "PyFLP.C80_type_partial",
    "PyFLP.C80_mix_partial",
    "PyFLP.C80_mix_refuted",
    "PyFLP.C80_type_refuted",
    "PyFLP.C80_exact"
   ],
   "note": "The mix setter adds to the stored number, so the claim is false (C80_mix_refuted); numbers outside of the documented range also break the type (C80_type_refuted). Proved: type with a mix below 65536, mix if it was 0. C80_exact says what is stored and read for every stored number and assigned value."
  },
  {
   "property": "C81",
   "status": "proved",
   "theorems": [
    "PyFLP.C81_delay"
   ],
   "note": "All four operations, both with and without the event, and saving."
  },
  {
   "property": "C82",
   "status": "proved",
   "theorems": [
    "PyFLP.C82_tracking",
    "PyFLP.C82_envelopes"
   ],
   "note": "envelopes and lfos are the same code with the same names."
  },
  {
   "property": "C83",
   "status": "proved",
   "theorems": [
    "PyFLP.C83_sample_path",
    "PyFLP.C83_data_path",
    "PyFLP.C83_text_refuted"
   ],
   "note": "pathlib modelled for POSIX. C83_text_refuted records that assigning the path just read may rewrite the stored text (normalisation); it is not part of the claim."
  },
  {
   "property": "C84",
   "status": "proved",
   "theorems": [
    "PyFLP.C84_read",
    "PyFLP.C84_none",
    "PyFLP.C84_stream",
    "PyFLP.C84_set"
   ],
   "note": "Points, values, tensions, positions (sums of offsets with abstract float addition), assignment."
  },
  {
   "property": "C85",
   "status": "proved",
   "theorems": [
    "PyFLP.C85_get",
    "PyFLP.C85_set",
    "PyFLP.C85_none"
   ],
   "note": "Rational model of binary64 without overflow; NaN components are not modelled."
  },
  {
   "property": "C86",
   "status": "proved",
   "theorems": [
    "PyFLP.C86_colour"
   ],
   "note": "Rational model of binary64; NaN components are not modelled. Ids 128, 149, 150."
  },
  {
   "property": "C87",
   "status": "partial",
   "theorems": [
    "PyFLP.C87_get",
    "PyFLP.C87_set_partial",
    "PyFLP.C87_lost_refuted",
    "PyFLP.C87_nodata",
    "PyFLP.vst_properties",
    "PyFLP.C87_declared"
   ],
   "note": "reading in full; assigning where the part exists; otherwise the assignment is silently lost (C87_lost_refuted)"
  },
  {
   "property": "C88",
   "status": "partial",
   "theorems": [
    "PyFLP.C88_get_partial",
    "PyFLP.C88_assign_refuted"
   ],
   "note": "reading; the program's assignment destroys the data, proved for every state and value (C88_assign_refuted)"
  },
  {
   "property": "C89",
   "status": "partial",
   "theorems": [
    "PyFLP.C89_get_partial",
    "PyFLP.C89_set_refuted",
    "PyFLP.C89_set_partial",
    "PyFLP.vst_flags",
    "PyFLP.C89_declared",
    "PyFLP.C89_set_exact"
   ],
   "note": "reading, except that a missing word raises TypeError; assigning works for setting bit 0 only, for all other flags it is refuted C89_set_exact states what assigning a flag does in every case."
  },
  {
   "property": "C90",
   "status": "proved",
   "theorems": [
    "PyFLP.C90_nested",
    "PyFLP.C90_lasting",
    "PyFLP.C90_plugin",
    "PyFLP.C90_complete"
   ],
   "note": "for every reachable state; lasting under every assignment through any model C90_complete: each declared nested model has all events its properties need, so each property reads and assigns as at the parent."
  },
  {
   "property": "C91",
   "status": "partial",
   "theorems": [
    "PyFLP.C91_set_partial",
    "PyFLP.C91_saved_partial",
    "PyFLP.C91_unnamed",
    "PyFLP.C91_lost_refuted",
    "PyFLP.C91_shared_refuted",
    "PyFLP.C91_half_refuted",
    "PyFLP.C91_base_refuted",
    "PyFLP.C91_dataless_refuted"
   ],
   "note": "class and events read back where target and plugin have name, data and wrapper; refuted: targets without data, independence, plugins without a wrapper, plugins whose data was removed, plugins without a class"
  },
  {
   "property": "C92",
   "status": "proved",
   "theorems": [
    "PyFLP.C92_plugin_class",
    "PyFLP.C92_named",
    "PyFLP.C92_declared"
   ],
   "note": "for a parsed file and any state whose events are those of the file; C92_named shows that the name that counts is always determined"
  },
  {
   "property": "C93",
   "status": "partial",
   "theorems": [
    "PyFLP.C93_same_project_partial",
    "PyFLP.C93_projects_refuted",
    "PyFLP.C93_classes_refuted",
    "PyFLP.C93_membership_refuted",
    "PyFLP.C93_membership_partial",
    "PyFLP.C93_exact"
   ],
   "note": "true of models of one class of one project; false across projects (only the positions count, so that two projects are equal iff they have the same number of events) and across classes (TypeError) C93_exact gives the outcome of == and != for models of any two projects."
  },
  {
   "property": "C94",
   "status": "partial",
   "theorems": [
    "PyFLP.C94_arrangements_partial",
    "PyFLP.C94_slots_partial",
    "PyFLP.C94_points_partial",
    "PyFLP.C94_mixer_refuted",
    "PyFLP.C94_channels_refuted",
    "PyFLP.C94_open_refuted",
    "PyFLP.C94_children_refuted",
    "PyFLP.C94_exact"
   ],
   "note": "true of arrangements, slots and automation points with both bounds; false of the mixer (off by one), of racks and layers (positions, not iids) and of missing bounds (TypeError) C94_exact states every case."
  },
  {
   "property": "C95",
   "status": "partial",
   "theorems": [
    "PyFLP.C95_index",
    "PyFLP.C95_name",
    "PyFLP.C95_params_refuted"
   ],
   "note": "true of inserts the mixer has parameters for; otherwise every access raises KeyError"
  },
  {
   "property": "C96",
   "status": "partial",
   "theorems": [
    "PyFLP.C96_len",
    "PyFLP.C96_inserts_partial",
    "PyFLP.C96_limit_refuted",
    "PyFLP.C96_events_refuted",
    "PyFLP.C96_max_slots_partial",
    "PyFLP.C96_max_slots_refuted",
    "PyFLP.C96_exact"
   ],
   "note": "true if every insert has one flag event and ends with an Output event and there are at most max_inserts of them; false otherwise, since len counts flag events and the iteration Output events; max_slots is at least, but not always, the documented number C96_exact counts the iteration for every mixer and state."
  },
  {
   "property": "C97",
   "status": "partial",
   "theorems": [
    "PyFLP.C97_classes_partial",
    "PyFLP.C97_groups",
    "PyFLP.C97_other_refuted",
    "PyFLP.C97_exact"
   ],
   "note": "true of racks of complete channels (as in C72); channels of other types than the documented ones are in none of the four C97_exact says what is yielded and raised for every rack and state."
  },
  {
   "property": "C98",
   "status": "partial",
   "theorems": [
    "PyFLP.C98_none",
    "PyFLP.C98_time_spent_partial",
    "PyFLP.C98_created_on_partial",
    "PyFLP.C98_raises_refuted",
    "PyFLP.C98_timestamp",
    "PyFLP.C98_exact"
   ],
   "note": "true within the range of timedelta and datetime, exact for whole days; NaNs and numbers out of range raise ValueError or OverflowError C98_exact: exactly which stored numbers can be read (and to what), and which exception the others raise."
  },
  {
   "property": "C99",
   "status": "partial",
   "theorems": [
    "PyFLP.C99_none_partial",
    "PyFLP.C99_parameter_refuted"
   ],
   "note": "only whether they are None is right: the condition is bound to the name, so that parameter is always 1 and controls_vst always False"
  },
  {
   "property": "C100",
   "status": "partial",
   "theorems": [
    "PyFLP.C100_tempo_partial",
    "PyFLP.C100_fine",
    "PyFLP.C100_fine_refuted"
   ],
   "note": "Everything but the last sentence is proved; a project that stores thousandths without a whole tempo raises TypeError on reading and on setting."
  },
  {
   "property": "C101",
   "status": "partial",
   "theorems": [
    "PyFLP.C101_build_partial",
    "PyFLP.C101_build_kept",
    "PyFLP.C101_build_refuted"
   ],
   "note": "Proved for versions with four parts; with three parts the old build number stays."
  },
  {
   "property": "C102",
   "status": "partial",
   "theorems": [
    "PyFLP.C102_time_partial",
    "PyFLP.C102_time_refuted",
    "PyFLP.C102_exact"
   ],
   "note": "Proved for ticks that are a multiple of five (the code warns about others and drops the rest); stated for the field's encoding and decoding. C102_exact states every case."
  },
  {
   "property": "C103",
   "status": "proved",
   "theorems": [
    "PyFLP.C103_saved",
    "PyFLP.C103_read"
   ],
   "note": "Values that fit the fields; edits through item objects of any age."
  },
  {
   "property": "C104",
   "status": "partial",
   "theorems": [
    "PyFLP.C104_slide_partial",
    "PyFLP.C104_slide_refuted",
    "PyFLP.C104_exact"
   ],
   "note": "False from Python 3.11 on: `note.slide = False` clears every flag of the note from 8 upwards (C104_slide_refuted). Proved: readback, isolation, and that the other flags are kept when setting, or clearing up to Python 3.10. C104_exact gives every bit of the flag word after the assignment, for both families of Python versions."
  },
  {
   "property": "C105",
   "status": "partial",
   "theorems": [
    "PyFLP.C105_class_partial",
    "PyFLP.C105_controllers_refuted"
   ],
   "note": "Holds for the ids declared by the modules import pyflp loads; controller.py is not among them, so that controller events are raw bytes."
  },
  {
   "property": "C106",
   "status": "partial",
   "theorems": [
    "PyFLP.C106_licensee_partial",
    "PyFLP.C106_licensee_refuted",
    "PyFLP.C106_latin_refuted",
    "PyFLP.C106_exact"
   ],
   "note": "False in general: a stored character whose code plus position is below 26 raises ValueError, one that decodes to a non-ASCII letter raises UnicodeDecodeError or ValueError. Proved for all texts without such characters, of any length. C106_exact gives the licensee in every case."
  },
  {
   "property": "C107",
   "status": "partial",
   "theorems": [
    "PyFLP.C107_declared",
    "PyFLP.C107_repr_partial",
    "PyFLP.C107_arp_refuted",
    "PyFLP.C107_delay_refuted",
    "PyFLP.C107_fx",
    "PyFLP.C107_remote",
    "PyFLP.C107_notebook",
    "PyFLP.C107_points",
    "PyFLP.C107_items"
   ],
   "note": "False of Arp (its repr always raises KeyError) and of delays without their modulation event. Proved for the other 28 classes of the table, and for FX, RemoteController, FruityNotebook2, automation points and controllers. Bands of the equaliser: C124. Not covered: playlist items, which show their channel or pattern only."
  },
  {
   "property": "C108",
   "status": "partial",
   "theorems": [
    "PyFLP.C108_session_partial",
    "PyFLP.C108_saves_partial"
   ],
   "note": "Sessions with every edit of Spec.EditStep (each constructor is one call of the API), removals and insertions of events through models. Missing: values that have no place in the file (C78_saved_refuted and C42_format_refuted show that they are accepted and break saving), properties of Arp (class cannot be read, C76), names of plugin classes (C77_retyped_refuted), colours of whole events with components that are no multiples of 1/255 (C86), assigned plugins (C91_saved_partial), versions across 11.5 (C45 refuted), removing version events; parsed values have to be valid."
  },
  {
   "property": "C109",
   "status": "proved",
   "theorems": [
    "PyFLP.C48_exact",
    "PyFLP.C51_exact",
    "PyFLP.C56_exact",
    "PyFLP.C72_exact"
   ],
   "note": "Stated for every reachable state and every arrangement of the events; internal names of channels are texts (as they are in every parsed project)."
  },
  {
   "property": "C110",
   "status": "proved",
   "theorems": [
    "PyFLP.C110_loop",
    "PyFLP.C110_round",
    "PyFLP.C110_channels"
   ],
   "note": "for every interleaving of the loop with value changes, header changes and view creation; removals and insertions are C111"
  },
  {
   "property": "C111",
   "status": "partial",
   "theorems": [
    "PyFLP.C111_patterns_partial",
    "PyFLP.C111_remove_refuted",
    "PyFLP.C111_insert_refuted",
    "PyFLP.C111_stale_refuted"
   ],
   "note": "patterns: any removals that do not concern a pattern still to come; refuted: removals and insertions while looping over channels, removals from later patterns"
  },
  {
   "property": "C112",
   "status": "partial",
   "theorems": [
    "PyFLP.C112_list",
    "PyFLP.C112_list_partial",
    "PyFLP.C112_truth",
    "PyFLP.C112_insert_refuted",
    "PyFLP.C112_patterns_refuted",
    "PyFLP.C112_mixer_refuted"
   ],
   "note": "list() agrees with the loop for arrangements, inserts, layers and tracks, and for patterns, mixer and rack exactly when the event len() counts is there; otherwise list() and bool() raise NoModelsFound although loops work"
  },
  {
   "property": "C113",
   "status": "partial",
   "theorems": [
    "PyFLP.C113_patterns_exact",
    "PyFLP.C113_patterns_partial",
    "PyFLP.C113_arrangements_exact",
    "PyFLP.C113_slots_partial",
    "PyFLP.C113_mixer_exact",
    "PyFLP.C113_mixer_refuted",
    "PyFLP.C113_rack_exact",
    "PyFLP.C113_rack_partial",
    "PyFLP.C113_rack_refuted",
    "PyFLP.C113_layer_refuted",
    "PyFLP.C113_track"
   ],
   "note": "exact results for patterns, arrangements, slots, mixer and rack; refuted: reversed(mixer) is empty, reversed(channels) and reversed(layer) go by number and end at the first missing one"
  },
  {
   "property": "C114",
   "status": "partial",
   "theorems": [
    "PyFLP.C114_get",
    "PyFLP.C114_active",
    "PyFLP.C114_editable",
    "PyFLP.C114_pages",
    "PyFLP.C114_text_partial",
    "PyFLP.C114_text_refuted",
    "PyFLP.C114_numbers_refuted",
    "PyFLP.C114_no_page",
    "PyFLP.C114_no_data"
   ],
   "note": "Reading, assigning and storing of the three properties for all reachable states; a longer page text makes the project unsavable (C114_text_refuted) and pages is not a dict by page number (C114_numbers_refuted). A page index past the end raises IndexError and changes nothing. Without plugin data changing a page raises TypeError and changes nothing."
  },
  {
   "property": "C115",
   "status": "partial",
   "theorems": [
    "PyFLP.C115_order_partial",
    "PyFLP.C115_total",
    "PyFLP.C115_build_refuted",
    "PyFLP.C115_text"
   ],
   "note": "Comparison is number by number and a strict total order wherever it is defined; comparing a version that has a build number with the same version without one raises TypeError (C115_build_refuted)."
  },
  {
   "property": "C116",
   "status": "partial",
   "theorems": [
    "PyFLP.C116_tracks_exact",
    "PyFLP.C116_tracks_partial",
    "PyFLP.C116_tracks_refuted"
   ],
   "note": "C116_tracks_exact says what is yielded and raised in every case. The statement is false in three cases (C116_tracks_refuted): a playlist whose size is a multiple of neither 32 nor 60 has no data and AttributeError is raised; a channel without type or group, or a pattern without New event, anywhere in the project makes every track of every arrangement unavailable. C116_tracks_partial: it holds otherwise, if every record names a channel or pattern. Builds of 12.9.1: see C71."
  },
  {
   "property": "C117",
   "status": "proved",
   "theorems": [
    "PyFLP.C117_plain_refuted",
    "PyFLP.C117_witness_refuted"
   ],
   "note": "negation proved: for every property with enum members and every number the assignment is accepted, saving succeeds and the event loses exactly the bytes of the field; witness with the values read from the saved file; members of enums are saved (C77_saved_partial)"
  },
  {
   "property": "C118",
   "status": "proved",
   "theorems": [
    "PyFLP.C118_search",
    "PyFLP.C118_patterns",
    "PyFLP.C118_arrangements",
    "PyFLP.C118_mixer",
    "PyFLP.C118_slots",
    "PyFLP.C118_current",
    "PyFLP.C118_channels"
   ],
   "note": "C118_search is the general statement for any test that looks at the events of a model; the others are the lookups of the collections. Text values are assumed for channel names (they are in every parsed project)."
  },
  {
   "property": "C119",
   "status": "partial",
   "theorems": [
    "PyFLP.C119_pattern",
    "PyFLP.C119_patterns",
    "PyFLP.C119_marker",
    "PyFLP.C119_group",
    "PyFLP.C119_channel",
    "PyFLP.C119_counts",
    "PyFLP.C119_arrangement",
    "PyFLP.C119_insert",
    "PyFLP.C119_track",
    "PyFLP.C119_items",
    "PyFLP.C119_project",
    "PyFLP.C119_pattern_refuted",
    "PyFLP.C119_marker_refuted",
    "PyFLP.C119_arrangements_refuted"
   ],
   "note": "What each text is, in every state, with the exceptions raised. Refuted: a pattern without a New event (and project.patterns with it) cannot be printed; a marker without a position is said to be a signature although its type is None; without a Current event the text of the arrangements counts one more than iterating yields. repr(arrangement) raises what iterating over its tracks raises. Texts are lists of pieces: how a single value is written is not modelled; the texts of slots, VST plugins and events are not either."
  },
  {
   "property": "C120",
   "status": "proved",
   "theorems": [
    "PyFLP.C120_saved_opens"
   ],
   "note": "For every file that opens and saves; no condition on the payloads."
  },
  {
   "property": "C121",
   "status": "proved",
   "theorems": [
    "PyFLP.C121_saving_settles"
   ],
   "note": "Either the first file has no channel parameters event, or LogsSettle (an assumption on math.log2 and ** of the platform, which are not modelled) holds; both are part of the statement."
  },
  {
   "property": "C122",
   "status": "proved",
   "theorems": [
    "PyFLP.C122_opened_saves",
    "PyFLP.C122_save_fails_exact"
   ],
   "note": "No condition on events or payloads."
  },
  {
   "property": "C123",
   "status": "partial",
   "theorems": [
    "PyFLP.C123_history_partial",
    "PyFLP.C123_saves_partial"
   ],
   "note": "Same edits as C108 in every round. Missing: what C108 leaves out (values without a place in the file, plugin assignments, changes of version events), and first files with values that do not fit."
  },
  {
   "property": "C124",
   "status": "partial",
   "theorems": [
    "PyFLP.C124_slot_exact",
    "PyFLP.C124_eq_refuted",
    "PyFLP.C124_band_exact",
    "PyFLP.C124_bands"
   ],
   "note": "Exact for slots (with no, unknown, VST, notebook or other native plugins) and for bands of the equaliser. False in three cases: VST plugins without a name or vendor (AttributeError), bands without all three records (KeyError), and insert.eq itself, which can never be printed (KeyError)."
  },
  {
   "property": "C125",
   "status": "partial",
   "theorems": [
    "PyFLP.C125_exact",
    "PyFLP.C125_value",
    "PyFLP.C125_same",
    "PyFLP.C125_declared_partial",
    "PyFLP.C125_opened",
    "PyFLP.C125_classes_apart",
    "PyFLP.C125_late_refuted",
    "PyFLP.C125_strict_refuted",
    "PyFLP.C125_called"
   ],
   "note": "C125_exact says which member every number gives after every program; the claim fails for numbers looked up before the module that declares them is imported (C125_late_refuted) and, on interpreters that refuse enumerations without members, for all numbers (C125_strict_refuted)."
  },
  {
   "property": "C126",
   "status": "proved",
   "theorems": [
    "PyFLP.C126_saved",
    "PyFLP.C126_factor_again",
    "PyFLP.C126_settles",
    "PyFLP.C126_position_range",
    "PyFLP.C126_position_refused",
    "PyFLP.C126_names",
    "PyFLP.C126_exact_refuted"
   ],
   "note": "The accuracy of the platform's log2 and power is a hypothesis (Spec.Accurate), met by a concrete real-number implementation (Ideal.env). C126_settles in addition assumes that factors beyond 2^1000 and 2^-1000 are refused. C126_exact_refuted: accuracy does not make resaving exact."
  },
  {
   "property": "C127",
   "status": "partial",
   "theorems": [
    "PyFLP.C127_exact",
    "PyFLP.C127_ne",
    "PyFLP.C127_equivalence",
    "PyFLP.C127_copy_exact",
    "PyFLP.C127_self_exact",
    "PyFLP.C127_bytes_partial",
    "PyFLP.C127_bytes_exact",
    "PyFLP.C127_bytes_refuted",
    "PyFLP.C127_self_refuted",
    "PyFLP.C127_numbers",
    "PyFLP.C127_specials"
   ],
   "note": "Equality is characterised exactly. That equal events are saved as the same bytes is refuted (hidden fields, signs of zero); C127_bytes_exact says for every class that equal events of one class and payload length are the same iff what == does not see is the same (without NaN and -0.0). construct's Container.__eq__ is part of the trusted base. C127_numbers and C127_specials state which numbers are equal by their rational values."
  },
  {
   "property": "C128",
   "status": "partial",
   "theorems": [
    "PyFLP.C128_methods",
    "PyFLP.C128_search",
    "PyFLP.C128_items_exact",
    "PyFLP.C128_stale_refuted",
    "PyFLP.C128_reread_exact",
    "PyFLP.C128_saved_partial",
    "PyFLP.C128_playlist_refuted"
   ],
   "note": "The methods and item objects are characterised for every history. Saving is refuted for playlists of the old layout with a multiple of 15 items (C128_playlist_refuted; C128_reread_exact shows that this is the only exception) and proved for all others as long as values fit and the file stays below 4 GB."
  },
  {
   "property": "C129",
   "status": "partial",
   "theorems": [
    "PyFLP.C129_operations",
    "PyFLP.C129_keys",
    "PyFLP.C129_saved_exact",
    "PyFLP.C129_assigned_partial",
    "PyFLP.C129_assigned_refuted",
    "PyFLP.C129_update_refuted",
    "PyFLP.C129_built_exact",
    "PyFLP.C129_named",
    "PyFLP.C129_removed_refuted",
    "PyFLP.C129_get"
   ],
   "note": "All operations, the keys, what is saved and how it is built are characterised for every history. Refuted: that update is atomic, that accepted assignments are saved (not after an assignment to value), that removing an optional field loses only that field."
  },
  {
   "property": "C130",
   "status": "proved",
   "theorems": [
    "PyFLP.C130_truth",
    "PyFLP.C130_double",
    "PyFLP.C130_double_refused",
    "PyFLP.C130_single",
    "PyFLP.C130_single_refused",
    "PyFLP.C130_single_refused_int",
    "PyFLP.C130_special",
    "PyFLP.C130_again",
    "PyFLP.C130_logs",
    "PyFLP.C130_saved",
    "PyFLP.C130_names"
   ],
   "note": "Nearest is stated on exact rationals against all numbers of the type, with ties and signs. C130_saved is the statement about projects. Integers go through a Python float first (double rounding), as struct.pack does; between 2^128 - 2^104 and 2^128 - 2^103 nothing is said about integers in binary32 fields. Fields stored as logarithms (C126) take integers as the float of the same value (C130_logs)."
  },
  {
   "property": "C131",
   "status": "proved",
   "theorems": [
    "PyFLP.C131_event",
    "PyFLP.C131_file",
    "PyFLP.C131_saved",
    "PyFLP.C131_written",
    "PyFLP.C131_field",
    "PyFLP.C131_item",
    "PyFLP.C131_automation",
    "PyFLP.C131_automation_readable",
    "PyFLP.C131_vst"
   ],
   "note": "Specification in LayoutSpec.lean, tables of places in Props/Offsets.lean. C131_event: for all event types, data is read as v exactly if it means v. C131_file: a file opens as p exactly if header, framing and events are as described. C131_saved / C131_written: saved files are such files. C131_field / C131_item: each named field at its literal place. For fields behind a height, stretch factor or position in the same struct the bytes of those have to mean something (otherwise that field is skipped without advancing and the later ones shift); what these three converted types mean is C132 and C126. Automation clips and VST data: literal places of the fields."
  },
  {
   "property": "C132",
   "status": "proved",
   "theorems": [
    "PyFLP.C132_read",
    "PyFLP.C132_write",
    "PyFLP.C132_exact",
    "PyFLP.C132_refuted",
    "PyFLP.C132_usual",
    "PyFLP.C132_not_written",
    "PyFLP.C132_saved"
   ],
   "note": "C132_exact gives the percentage read after writing, for all percentages up to 2^23 in magnitude; C132_refuted: not every height comes back (29% becomes 28%); C132_usual lists those up to 200% that do not. C132_saved carries this to whole files."
  },
  {
   "property": "C133",
   "status": "partial",
   "theorems": [
    "PyFLP.C133_opening",
    "PyFLP.C133_opening_fails",
    "PyFLP.C133_strict_opening",
    "PyFLP.C133_saving",
    "PyFLP.C133_unchanged",
    "PyFLP.C133_strict_saving",
    "PyFLP.C133_strict_saving_refuted",
    "PyFLP.C133_playlist",
    "PyFLP.C133_lists",
    "PyFLP.C133_silent_refuted",
    "PyFLP.C133_reopened"
   ],
   "note": "Exact for opening, saving and reopening, in both modes. Two parts of what a user would expect are false and proved so: lists other than playlists lose bytes without a warning (C133_silent_refuted; C133_lists says exactly when), and with warnings as exceptions odd ticks are not reported when saving but the time is left out (C133_strict_saving_refuted; C133_strict_saving says exactly what is written)."
  },
  {
   "property": "C134",
   "status": "proved",
   "theorems": [
    "PyFLP.C134_field",
    "PyFLP.C134_item",
    "PyFLP.C134_number",
    "PyFLP.C134_property",
    "PyFLP.C134_placed",
    "PyFLP.C134_history",
    "PyFLP.C134_opened"
   ],
   "note": "For values that fit (a value that does not is dropped or refused, C77_directx_refuted, C37). Texts change the size of their event only, see C32_saved_file. C134_placed: every property of the table that is a field of a struct event has a documented place. C134_history and C134_opened: any number of assignments, also relative to the file that was opened."
  },
  {
   "property": "C135",
   "status": "proved",
   "theorems": [
    "PyFLP.C135_attempts",
    "PyFLP.C135_last",
    "PyFLP.C135_repair"
   ],
   "note": "Crash points as in C19: between any two steps and after any number of written bytes. The operating system is assumed to store written bytes in order."
  },
  {
   "property": "C136",
   "status": "partial",
   "theorems": [
    "PyFLP.C136_same",
    "PyFLP.C136_undo",
    "PyFLP.C136_history",
    "PyFLP.C136_programs",
    "PyFLP.C136_refuted"
   ],
   "note": "As stated it is false on Python 3.11 and later: clearing a flag (also one that is clear) drops the bits of the flag word above the highest known one, so that fx.clip = fx.clip can change the project (C136_refuted). C136_same and C136_undo give the exact condition for every property of the table (iff); C136_history is the claim for all histories of assignments that meet it, in every reachable state; C136_programs instantiates it for programs that open a file. Up to Python 3.10 the claim holds without exception."
  },
  {
   "property": "C137",
   "status": "partial",
   "theorems": [
    "PyFLP.C137_order",
    "PyFLP.C137_last",
    "PyFLP.C137_refuted"
   ],
   "note": "C137_order is the first sentence in full, for any number of assignments and any rearrangement. The second sentence is false on Python 3.11 and later for a flag that is cleared and set again in a word with unknown bits (C137_refuted); C137_last gives the exact condition (iff)."
  },
  {
   "property": "C138",
   "status": "proved",
   "theorems": [
    "PyFLP.C138_reach",
    "PyFLP.C138_local",
    "PyFLP.C138_header",
    "PyFLP.C138_everywhere"
   ],
   "note": "C138_reach: what can differ at all, for every event (DependsOn is the exact dependence of types on versions and internal names). C138_local: iff for all events but versions and internal names. C138_everywhere: every event of an opened file has such a place."
  },
  {
   "property": "C139",
   "status": "proved",
   "theorems": [
    "PyFLP.C139_same",
    "PyFLP.C139_project",
    "PyFLP.C139_pop",
    "PyFLP.C139_insert"
   ],
   "note": "The chunked list of sortedcontainers (update, add, _expand, remove, _delete, bisection) is modelled and proved to agree with the plain lists of the tree model in every history; C139_project states it for the event list of a project against a plain list, C139_pop and C139_insert for views."
  },
  {
   "property": "C140",
   "status": "proved",
   "theorems": [
    "PyFLP.C140_added",
    "PyFLP.C140_left_out",
    "PyFLP.C140_unknown",
    "PyFLP.C140_saved",
    "PyFLP.C140_kept"
   ],
   "note": "Events 199 and 201 decide the types of later events; how far a change of theirs reaches is C138."
  },
  {
   "property": "C141",
   "status": "proved",
   "theorems": [
    "PyFLP.C141_alone",
    "PyFLP.C141_interleaved",
    "PyFLP.C141_shared_refuted"
   ],
   "note": "C141_alone: a program with any number of opened projects in one memory, in any interleaving; the restriction of what it sees to one project equals the run with that project alone, provided no event object is brought into two projects. C141_interleaved: hence any two interleavings agree. C141_shared_refuted: the proviso is needed. Threads are not modelled: actions happen one after the other."
  },
  {
   "property": "C142",
   "status": "proved",
   "theorems": [
    "PyFLP.C142_threads",
    "PyFLP.C142_race_refuted"
   ],
   "note": "C142_threads: for every schedule a finished thread has seen what any sequential program with the same actions on its project sees, and it finishes after a number of its own turns that does not depend on the others. C142_race_refuted: two threads inserting into the same project can leave two events at one position."
  },
  {
   "property": "C143",
   "status": "proved",
   "theorems": [
    "PyFLP.C143_conserved",
    "PyFLP.C143_number",
    "PyFLP.C143_order",
    "PyFLP.C143_raise",
    "PyFLP.C143_view_refuted"
   ],
   "note": "Proved for the project's own events with the library's chunked lists and bisection, without assuming sorted lists or views that are up to date. For the views themselves the second part is false (C143_view_refuted): a pop that raises may have taken the event out of the view already."
  },
  {
   "property": "C144",
   "status": "partial",
   "theorems": [
    "PyFLP.C144_sample_path_partial",
    "PyFLP.C144_data_path_partial",
    "PyFLP.C144_refuted",
    "PyFLP.C144_unchanged",
    "PyFLP.C144_elsewhere",
    "PyFLP.C144_says",
    "PyFLP.C144_drive",
    "PyFLP.C144_extended",
    "PyFLP.C144_extended_share",
    "PyFLP.C144_no_text"
   ],
   "note": "Proved for the usual forms of paths; C144_refuted: Path('//m/') and Path('./c:') are stored as texts that are read as other paths. C144_says: a path stored the way Windows programs write it is read as the drive or share, the root and the names written. C144_drive: exactly which paths that do not start with two separators have a drive. C144_extended, C144_extended_share: the same for long paths with the prefix of extended paths. C144_no_text: paths whose event holds no text raise TypeError on every system, and only data_path can be assigned then"
  },
  {
   "property": "C145",
   "status": "partial",
   "theorems": [
    "PyFLP.C145_queries",
    "PyFLP.C145_pop",
    "PyFLP.C145_insert",
    "PyFLP.C145_iadd_refuted"
   ],
   "note": "Everything but the last clause; C145_iadd_refuted: tree += event raises IndexError on every tree that has events, and otherwise leaves the name bound to None."
  },
  {
   "property": "C146",
   "status": "partial",
   "theorems": [
    "PyFLP.C146_flag_partial",
    "PyFLP.C146_exact",
    "PyFLP.C146_placed",
    "PyFLP.C146_refuted",
    "PyFLP.C146_slide"
   ],
   "note": "C146_exact gives every bit of the new file. The property holds when the flag is set, up to Python 3.10, and when the flag word has no bits above the named ones; C146_refuted: from Python 3.11 on, clearing a flag also clears the nameless bits above the highest name in the saved file. C146_placed: all flag properties of the table but directx meet the conditions on the place of the flag. C146_slide: the same, exactly, for the slide flag of notes in list events."
  },
  {
   "property": "C147",
   "status": "proved",
   "theorems": [
    "PyFLP.C147_remove",
    "PyFLP.C147_insert",
    "PyFLP.C147_assign",
    "PyFLP.C147_property"
   ],
   "note": "For all reachable states and live views; insertions and assignments under the condition that the file can be saved before and after (C03, C108 and C11 say when). Spliced is a plain description of two byte strings."
  },
  {
   "property": "C148",
   "status": "proved",
   "theorems": [
    "PyFLP.C148_looking",
    "PyFLP.C148_saved",
    "PyFLP.C148_edits",
    "PyFLP.C148_save"
   ],
   "note": "C148_looking: any number of calls of the reading API (Spec.Look has one constructor per call) from any state leaves header, event objects, entries and all existing trees as they were, up to new trees and children (Spec.AsBefore). C148_saved: in reachable states the project, the saved bytes, the events of up-to-date objects and all properties of the table read the same. C148_edits: removal, insertion and assignment through an up-to-date object have the same result and lead to states that again agree up to added trees. Functions of the model that return no state cannot change one. C148_save: saving as a call on the objects (World.save, with the tree it makes for len(project.channels)) gives exactly saveBytes of the project and changes nothing."
  },
  {
   "property": "C149",
   "status": "proved",
   "theorems": [
    "PyFLP.C149_survives",
    "PyFLP.C149_out_of_date",
    "PyFLP.C149_file",
    "PyFLP.C149_rounds",
    "PyFLP.C149_rounds_unknown"
   ],
   "note": "Spec.Edited lists what a program can do together with what it has assigned, inserted and removed; Spec.MadeOf says which pieces the event data of a file consist of. C149_out_of_date: the same with views that are out of date (any use as in C143), where at most as many events are missing as were taken out. C149_file: from the opened file to the saved one; every event neither assigned nor removed with canonical data (all unknown events and colours) keeps its id and data. C149_rounds: through any number of rounds of opening, editing and saving, for events whose class does not depend on their place."
  },
  {
   "property": "C150",
   "status": "proved",
   "theorems": [
    "PyFLP.C150_copied",
    "PyFLP.C150_saves",
    "PyFLP.C150_encoding",
    "PyFLP.C150_refuted"
   ],
   "note": "C150_copied: insertion in the tree model, then save and parse. C150_saves: the project with the copies can be saved. C150_encoding: if an untyped text is among the copies and everything is read back as it was, the encodings at the two places are the same, so the condition is needed. C150_refuted: without it the claim is false (a channel name of a version 9 project copied into a version 20 project). Inserting at the very end is not possible: append raises IndexError (C25)."
  },
  {
   "property": "C151",
   "status": "proved",
   "theorems": [
    "PyFLP.C151_exact",
    "PyFLP.C151_reopened",
    "PyFLP.C151_removed"
   ],
   "note": "Spec.FromFile: the event is one of some file that can be opened. Spec.InPlace: its class is the one that belongs to its place (Spec.kindOf). C151_exact is an equivalence. C151_removed: histories as in C149 without insertions and assignments."
  },
  {
   "property": "C152",
   "status": "proved",
   "theorems": [
    "PyFLP.C152_opening",
    "PyFLP.C152_exact",
    "PyFLP.C152_handlers",
    "PyFLP.C152_strict"
   ],
   "note": "The exact set of exceptions over all byte strings, a file for each of them, and the exact condition on except clauses. The model names data that ends too early and texts that cannot be decoded by one exception each; the specification (pythonOf) lists the Python exceptions these may be. Errors of the operating system (missing file, no permission) are not part of the statement. With warnings turned into exceptions (C152_strict) the first warning replaces whatever follows, the damage of the file included."
  },
  {
   "property": "C153",
   "status": "proved",
   "theorems": [
    "PyFLP.C153_first",
    "PyFLP.C153_rest",
    "PyFLP.C153_recover"
   ],
   "note": "An exact description of every failure after the header, in terms of the bytes (UncutEvents, FailsAt, BadEvent) and of the specification of successful reading (Decoded). As in C152, StreamError and UnicodeError of the model stand for the exceptions listed there. The file cut where the damage begins, with the size in its header corrected, opens with the events up to there."
  }
 ]
}