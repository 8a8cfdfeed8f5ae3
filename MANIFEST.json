{"claims": [
  {"property": "C01", "status": "proved", "theorems": ["ATG.C01_construct", "ATG.C01_construct_sorted", "ATG.C01_order_unique", "ATG.C01_reject", "ATG.C01_empty"], "note": "Permutation, order, entry class, rejection of mixed classes, empty list; uniqueness for distinct starts makes the choice of sort irrelevant."},
  {"property": "C02", "status": "proved", "theorems": ["ATG.C02_contains"], "note": "Iff with identity or equality of kind, times and label."},
  {"property": "C03", "status": "proved", "theorems": ["ATG.C03_add", "ATG.C03_add_nothing", "ATG.C03_add_reject", "ATG.C03_add_reject_mixed", "ATG.C03_add_empty"], "note": "Exact resulting heap and list; both ValueError branches; the case of an empty left operand."},
  {"property": "C04", "status": "partial", "theorems": ["ATG.C04_violated", "ATG.C04_append_partial", "ATG.C04_append_empty"], "note": "Violated as stated (C04_violated: a start of 0 in the list makes append put the entry last). Proved when no start is 0 or the new entry is last."},
  {"property": "C05", "status": "proved", "theorems": ["ATG.C05_append_old", "ATG.C05_append_listed", "ATG.C05_append_twice", "ATG.C05_append_count"], "note": "Idempotent in every outcome, and a new entry occurs exactly once more."},
  {"property": "C06", "status": "partial", "theorems": ["ATG.C06_violated", "ATG.C06_subset_remove_partial", "ATG.C06_tier_remove", "ATG.C06_remove_none", "ATG.C06_pop_none"], "note": "Violated as stated for subset lists (C06_violated: remove deletes value-equal twins as well). Proved in full for tier lists, the ValueError branch and pop; for subset lists when no twin remains or the superset is another."},
  {"property": "C07", "status": "partial", "theorems": ["ATG.C07_concat_partial", "ATG.C07_concat_onto_empty", "ATG.C07_nothing_new_violated", "ATG.C07_remove_violated", "ATG.C07_plain_remove", "ATG.C07_append_violated"], "note": "Order, shift and frame proved for a non-empty new list; removal before any concat proved exact; false for an empty one and for later use of the list (violated theorems)."},
  {"property": "C08", "status": "proved", "theorems": ["ATG.C08_overlap", "ATG.C08_zero_duration"], "note": "Iff for positive durations; C08_zero_duration shows why the hypothesis is needed."},
  {"property": "C09", "status": "partial", "theorems": ["ATG.C09_violated", "ATG.C09_set_fol_partial", "ATG.C09_set_prev_partial", "ATG.C09_self", "ATG.C09_class", "ATG.C09_fuel"], "note": "Violated as stated (C09_violated: stale state left by fuse_rightwards in a Word tier). Proved outside that state, with exact heaps, error branches and termination for every fuel >= 3."},
  {"property": "C10", "status": "proved", "theorems": ["ATG.C10_set_subset_list", "ATG.C10_precedence", "ATG.C10_history"], "note": "For every state and every returning call of set_subset_list on distinct intervals not labelled '#'; exact frame of re-linking; invariant over histories."},
  {"property": "C11", "status": "proved", "theorems": ["ATG.C11_tier_init"], "note": "For distinct intervals not labelled '#'; full frame of what does not change."},
  {"property": "C12", "status": "partial", "theorems": ["ATG.C12_violated_set_super_instance", "ATG.C12_violated_set_subset_list", "ATG.C12_violated_copy", "ATG.C12_history_partial", "ATG.C12_one_superset_partial"], "note": "Violated as stated by set_super_instance, direct set_subset_list and value-equal copies (three witnesses). Proved over every admissible history of the other operations, failing calls included."},
  {"property": "C13", "status": "partial", "theorems": ["ATG.C13_violated_accepts", "ATG.C13_violated_unchanged", "ATG.C13_append_reject_partial", "ATG.C13_append_subset_reject", "ATG.C13_assign_reject", "ATG.C13_set_super_reject", "ATG.C13_set_super_none", "ATG.C13_history_partial"], "note": "Violated as stated by append with a superclass instance (two witnesses). append_subset_list, subset_list= and set_subset_list proved in every state; append proved for classes that are not superclasses of the subset class; typing proved over histories."},
  {"property": "C14", "status": "proved", "theorems": ["ATG.C14_append", "ATG.C14_append_subset", "ATG.C14_assign", "ATG.C14_append_subset_within"], "note": "append, append_subset_list and subset_list=, from every state reached by an admissible history, with the frame; append_subset_list leaves within unset (C14_append_subset_within)."},
  {"property": "C15", "status": "proved", "theorems": ["ATG.C15_validate"], "note": "Iff, with the tolerance of numpy written out."},
  {"property": "C16", "status": "partial", "theorems": ["ATG.C16_fills_partial", "ATG.C16_validate_violated", "ATG.C16_overhang_violated", "ATG.C16_empty"], "note": "Proved for intervals outside groups: with a non-empty subset list (C16_fills_partial, up to numpy's tolerance, exactly wherever a filler is involved) and with an empty one (C16_empty). Gaps within tolerance remain and validate() may reject them (C16_validate_violated); overhanging subsets give an interval that ends before it starts (C16_overhang_violated). Missing: intervals whose tier is in a group."},
  {"property": "C17", "status": "partial", "theorems": ["ATG.C17_right_partial", "ATG.C17_left_partial", "ATG.C17_right_loose_partial", "ATG.C17_left_loose_partial", "ATG.C17_right_edge", "ATG.C17_left_edge", "ATG.C17_unlinked", "ATG.C17_hash_violated", "ATG.C17_chain"], "note": "Proved on tiers and outside them, both directions, error branches and whole chains, for label functions that do not return the boundary mark #; for those that do it fails (C17_hash_violated)."},
  {"property": "C18", "status": "partial", "theorems": ["ATG.C18_right_partial", "ATG.C18_left_partial", "ATG.C18_right_violated", "ATG.C18_left_violated", "ATG.C18_chain_violated", "ATG.C18_loose_violated"], "note": "holds on tiers whose superset class is Top itself and inside supersets of tiers; violated, for all such tiers, where the superset class is another one (Word tiers), and outside tiers; label # excluded"},
  {"property": "C19", "status": "proved", "theorems": ["ATG.C19_interval_at", "ATG.C19_interval_at_error"], "note": "Iff for non-overlapping intervals; the TypeError for overlapping ones is characterised."},
  {"property": "C20", "status": "proved", "theorems": ["ATG.C20_xmin", "ATG.C20_xmax", "ATG.C20_within"], "note": "Iff for least start and greatest end, None when empty, and containment."},
  {"property": "C21", "status": "partial", "theorems": ["ATG.C21_clean", "ATG.C21_fills_partial", "ATG.C21_zero_violated", "ATG.C21_tolerance_violated"], "note": "Ungrouped tier with positive times and a real gap: one blank per gap, in place, nothing else changes, idempotent; clean tiers unchanged; tiers in groups are the subject of C72. Violated whenever a start is 0 (fillers go to the end) and for gaps within tolerance."},
  {"property": "C22", "status": "proved", "theorems": ["ATG.C22_order", "ATG.C22_adjacent", "ATG.C22_search", "ATG.C22_dropped_violated", "ATG.C22_cycle_violated"], "note": "Order and adjacency for every list of tiers, fuel of the searches is enough; a tier outside the hierarchy is dropped and a class cycle loops for ever (both with witness)."},
  {"property": "C23", "status": "proved", "theorems": ["ATG.C23_greatest", "ATG.C23_monotone", "ATG.C23_partition", "ATG.C23_enclosed_violated"], "note": "Greatest overlap, monotone, partition for sorted spans; an enclosed lower interval may land in two slices (witness)."},
  {"property": "C24", "status": "proved", "theorems": ["ATG.C24_aligned", "ATG.C24_construct", "ATG.C24_again"], "note": "Any number of aligned tiers in any order, constructor and re_relate."},
  {"property": "C25", "status": "partial", "theorems": ["ATG.C25_boundaries_partial", "ATG.C25_empty_violated", "ATG.C25_append_violated"], "note": "Aligned tiers; fails for an upper interval without lower ones and after an append to a superset (witnesses)."},
  {"property": "C26", "status": "partial", "theorems": ["ATG.C26_on_tier_partial", "ATG.C26_gap_violated", "ATG.C26_tolerance_violated"], "note": "Aligned tiers; a gap filler is not on the lower tier (witness)."},
  {"property": "C27", "status": "proved", "theorems": ["ATG.C27_tier", "ATG.C27_group", "ATG.C27_textgrid", "ATG.C27_compose", "ATG.C27_inverse", "ATG.C27_preserves", "ATG.C27_shared_entry"], "note": "Exact result for tiers (no hypothesis), groups and textgrids (each entry on one tier); composition, inverse, order, overlap and durations."},
  {"property": "C28", "status": "proved", "theorems": ["ATG.C28_interval"], "note": "For every forest and every sufficient recursion budget; exactly the descendants move."},
  {"property": "C29", "status": "partial", "theorems": ["ATG.C29_diverges_violated", "ATG.C29_down_partial", "ATG.C29_up_partial", "ATG.C29_bounded_partial", "ATG.C29_terminates_partial", "ATG.C29_gains_partial", "ATG.C29_limit"], "note": "C29_diverges_violated: an append of a value-equal copy with a value-equal first subset interval recurses for ever, at every fuel. Otherwise, that is without two entries of the same times and label, the nesting of calls is bounded for groups of any depth (C29_bounded_partial, C29_terminates_partial), the append only adds relatives of the appended entry (C29_gains_partial), and the outcome does not depend on the recursion limit (C29_limit). C29_down_partial and C29_up_partial give the exact result for two levels."},
  {"property": "C30", "status": "partial", "theorems": ["ATG.C30_terminates", "ATG.C30_set_superset_partial", "ATG.C30_set_subset_partial", "ATG.C30_rejects", "ATG.C30_name_violated", "ATG.C30_never_self_partial", "ATG.C30_self_violated"], "note": "Mutual links and termination proved; false for names containing Top/Bottom and, through inheritance, for a class under its own subclass: witnesses."},
  {"property": "C31", "status": "partial", "theorems": ["ATG.C31_custom_classes_partial", "ATG.C31_name_violated", "ATG.C31_repeated_violated", "ATG.C31_empty"], "note": "Proved for distinct names without Top/Bottom in them; false otherwise: witnesses."},
  {"property": "C32", "status": "partial", "theorems": ["ATG.C32_names_violated", "ATG.C32_names_partial", "ATG.C32_indices"], "note": "Indices: proved. Names: the inverse permutation is applied; witness for a cycle of three, exact characterisation proved."},
  {"property": "C33", "status": "partial", "theorems": ["ATG.C33_clone_partial", "ATG.C33_not_top", "ATG.C33_name_violated"], "note": "Proved for class names without Top/Bottom; false otherwise: witness."},
  {"property": "C34", "status": "proved", "theorems": ["ATG.C34_hierarchy"], "note": "Any depth, any starting class."},
  {"property": "C35", "status": "proved", "theorems": ["ATG.C35_split", "ATG.C35_exact", "ATG.C35_leftover", "ATG.C35_too_few", "ATG.C35_point_class"], "note": "one-hierarchy flat and nested class lists; error branches included"},
  {"property": "C36", "status": "partial", "theorems": ["ATG.C36_interleave_partial", "ATG.C36_pop_partial", "ATG.C36_round_trip_partial", "ATG.C36_edge_violated", "ATG.C36_failed_violated"], "note": "Class links: interleaving puts the new class between its neighbours whatever happens to the textgrid, popping links the neighbours again, and the two together restore every earlier class. Violated at the edges (IndexError, and then the links stay changed)."},
  {"property": "C37", "status": "partial", "theorems": ["ATG.C37_shape", "ATG.C37_distinct_partial", "ATG.C37_kept", "ATG.C37_violated"], "note": "distinct when no requested name collides with a generated one; violated in general with witness"},
  {"property": "C38", "status": "proved", "theorems": ["ATG.C38_import", "ATG.C38_round_trip", "ATG.C38_export"], "note": "Import of sorted triples with any labels, round trip, frame; praatio's own IntervalTier constructor is outside the model."},
  {"property": "C39", "status": "partial", "theorems": ["ATG.C39_agree_partial", "ATG.C39_pads_partial", "ATG.C39_zero_always", "ATG.C39_zero_violated", "ATG.C39_xmax_violated", "ATG.C39_points_violated"], "note": "Proved for interval groups whose tiers are flush after their own cleanup: exactly what is padded where, hence agreement of xmin; C73 shows that complete aligned groups are. Violated: xmax need not agree, zero-length intervals are added (always for the longest group), points groups raise ValueError."},
  {"property": "C40", "status": "partial", "theorems": ["ATG.C40_path", "ATG.C40_distinct", "ATG.C40_prefix", "ATG.C40_computed", "ATG.C40_group_partial", "ATG.C40_textgrid", "ATG.C40_incomplete_violated", "ATG.C40_popped_violated"], "note": "paths are unique when every container lists what it contains; violated for incomplete groups and popped entries"},
  {"property": "C41", "status": "partial", "theorems": ["ATG.C41_path", "ATG.C41_same_partial", "ATG.C41_violated"], "note": "ids injective in the path and equal paths only for the same node under the completeness hypothesis; violated otherwise"},
  {"property": "C42", "status": "proved", "theorems": ["ATG.C42_nearest"], "note": "First index of minimal distance; ValueError exactly for the empty tier."},
  {"property": "C43", "status": "partial", "theorems": ["ATG.C43_distance_partial", "ATG.C43_zero_violated", "ATG.C43_built", "ATG.C43_distance_from"], "note": "Distance 0 to a neighbour at the same time comes out as None."},
  {"property": "C44", "status": "partial", "theorems": ["ATG.C44_group_xmin", "ATG.C44_group_xmax", "ATG.C44_points_violated", "ATG.C44_points_partial", "ATG.C44_textgrid_xmin", "ATG.C44_textgrid_xmax_partial"], "note": "Violated for PointsGroup.xmax (C44_points_violated). Iff characterisations for group xmin, TierGroup xmax, textgrid xmin, textgrid xmax without points groups, and points groups with one time per tier."},
  {"property": "C45", "status": "proved", "theorems": ["ATG.C45_construct", "ATG.C45_interval"], "note": "Construction rejects intervals and keeps exactly the points."},
  {"property": "C46", "status": "partial", "theorems": ["ATG.C46_entry", "ATG.C46_exactly_one", "ATG.C46_tier", "ATG.C46_group_partial", "ATG.C46_empty_violated", "ATG.C46_lost_violated", "ATG.C46_same_name_violated"], "note": "One row per path to a lowest interval, in order, exactly one per lowest interval; entries outside the top tier, empty tiers and equal class names are violations."},
  {"property": "C47", "status": "partial", "theorems": ["ATG.C47_tier", "ATG.C47_textgrid_partial", "ATG.C47_empty_violated"], "note": "One row per entry, in order; an empty tier raises."},
  {"property": "C48", "status": "partial", "theorems": ["ATG.C48_visits_partial", "ATG.C48_break", "ATG.C48_nested_other", "ATG.C48_nested_violated", "ATG.C48_nested_diverges"], "note": "Single and differently nested loops, and loops with a break; nested loops over the same interval are a violation."},
  {"property": "C49", "status": "proved", "theorems": ["ATG.C49_position", "ATG.C49_out_of_range", "ATG.C49_wraps", "ATG.C49_unlisted", "ATG.C49_built"], "note": "Positions, range errors, unlisted and built tiers; a negative index wraps."},
  {"property": "C50", "status": "proved", "theorems": ["ATG.C50_related", "ATG.C50_no_points", "ATG.C50_not_mutual"], "note": "Includes termination; the relation is not mutual (witness)."},
  {"property": "C51", "status": "proved", "theorems": ["ATG.C51_cast", "ATG.C51_cast_reject", "ATG.C51_kind"], "note": "Exact heap, rejection, and invariance of the kind."},
  {"property": "C52", "status": "proved", "theorems": ["ATG.C52_distinct", "ATG.C52_duplicate"], "note": "accessor lookup by name, with the duplicate-name case stated"},
  {"property": "C53", "status": "partial", "theorems": ["ATG.C53_order_partial", "ATG.C53_unlinked_violated"], "note": "Order holds; links are missing after append (violated theorem)."},
  {"property": "C54", "status": "partial", "theorems": ["ATG.C54_violated", "ATG.C54_empty_partial"], "note": "False for every group with a point; holds for empty second groups."},
  {"property": "C55", "status": "partial", "theorems": ["ATG.C55_clean_partial", "ATG.C55_violated"], "note": "Clean tiers stay linked. Violated for every tier with a real gap: fillers are unlinked and have no tier."},
  {"property": "C56", "status": "partial", "theorems": ["ATG.C56_default_violated", "ATG.C56_default_partial"], "note": "Negation proved (mutable default argument); exact result proved."},
  {"property": "C57", "status": "partial", "theorems": ["ATG.C57_stale_violated"], "note": "Negation proved with a reachable witness; nothing remains to prove beyond C30."},
  {"property": "C58", "status": "proved", "theorems": ["ATG.C58_interval_at_point"], "note": ""},
  {"property": "C59", "status": "partial", "theorems": ["ATG.C59_tier_partial", "ATG.C59_empty_violated", "ATG.C59_unrelated"], "note": "Holds for non-empty second tiers; an empty one raises RecursionError."},
  {"property": "C60", "status": "partial", "theorems": ["ATG.C60_snap", "ATG.C60_gap", "ATG.C60_tiles", "ATG.C60_negative_violated", "ATG.C60_levels_violated"], "note": "Proved for two tiers (C60_snap, C60_gap, C60_tiles). Positive durations fail when lower intervals lie outside all upper ones (C60_negative_violated), and a third level undoes the agreement of the first two (C60_levels_violated)."},
  {"property": "C61", "status": "proved", "theorems": ["ATG.C61_inward", "ATG.C61_still", "ATG.C61_labels", "ATG.C61_fuse_sharp"], "note": "For arbitrary programs over all modelled public operations, including those that raise. C61_fuse_sharp shows that fusing does what the others cannot."},
  {"property": "C62", "status": "partial", "theorems": ["ATG.C62_noSelf_partial", "ATG.C62_hash_partial", "ATG.C62_reachable_partial", "ATG.C62_fuse_violated", "ATG.C62_label_violated"], "note": "Proved for all programs that do not fuse or assign labels; fusing and assigning labels break it (C62_fuse_violated, C62_label_violated)."},
  {"property": "C63", "status": "partial", "theorems": ["ATG.C63_starts", "ATG.C63_ends", "ATG.C63_length", "ATG.C63_order_violated"], "note": "Taken over exactly, and wrong lengths refused; but nothing keeps the tier in time order (C63_order_violated)."},
  {"property": "C64", "status": "partial", "theorems": ["ATG.C64_group", "ATG.C64_chain", "ATG.C64_length", "ATG.C64_none_violated", "ATG.C64_textgrid"], "note": "Proved for all interval groups and textgrids without overlapping intervals; in related tiers each result is the superset of the next. Fails (C64_none_violated) where a tier has no interval at the time: the None of the lookup is no valid index, so the whole lookup raises TypeError instead of skipping that tier."},
  {"property": "C65", "status": "partial", "theorems": ["ATG.C65_sum_partial", "ATG.C65_empty_left", "ATG.C65_rejects", "ATG.C65_operands_violated", "ATG.C65_empty_violated", "ATG.C65_points_partial"], "note": "Contents, order, links, frame and error branches proved for all interval tiers (C65_sum_partial) and point tiers (C65_points_partial). Fails: the operands' entries belong to the new tier afterwards (C65_operands_violated, for all operands), and the sum of two empty tiers loses its class (C65_empty_violated)."},
  {"property": "C66", "status": "partial", "theorems": ["ATG.C66_sum_partial", "ATG.C66_rejects", "ATG.C66_kept_partial", "ATG.C66_overlap_violated"], "note": "Proved when the second group lies after the first (any number of tiers). Fails for overlapping groups (C66_overlap_violated), and as in C65 the operands lose their entries' intier."},
  {"property": "C67", "status": "partial", "theorems": ["ATG.C67_append_partial", "ATG.C67_rejects_kind", "ATG.C67_rejects", "ATG.C67_dropped_violated", "ATG.C67_points_violated", "ATG.C67_textgrid_partial", "ATG.C67_unknown"], "note": "Proved for groups in no textgrid (C67_append_partial) and in a textgrid (C67_textgrid_partial: the tier is cast to the textgrid's class of the same name), for aligned tiers that form a chain with the new one, with error branches (C67_rejects_kind, C67_rejects, C67_unknown). Fails: a tier of a cloned class passes the tests and is dropped silently (C67_dropped_violated); a point tier in a textgrid loses points appended since it was built (C67_points_violated)."},
  {"property": "C68", "status": "partial", "theorems": ["ATG.C68_hierarchies_partial", "ATG.C68_repeated_violated"], "note": "Proved when each class is listed once. Fails when a hierarchy is listed again (C68_repeated_violated): with [Word, Phone, Word, Phone] the second group gets the phone tier of the first and the last tier is lost, because the subset class is looked up by its first place in the list."},
  {"property": "C69", "status": "partial", "theorems": ["ATG.C69_interleave_partial", "ATG.C69_empty_violated"], "note": "proved for groups whose tiers have aligned boundaries and a non-empty source tier; violated for groups with empty tiers, where the lower tiers are lost (C69_empty_violated), and at the edges (C36_edge_violated)"},
  {"property": "C70", "status": "partial", "theorems": ["ATG.C70_pop_partial", "ATG.C70_only_violated"], "note": "popClass on tiers that fit together, groups sharing no entry, by induction on the groups (tidiness is kept only for the entries of the remaining tiers: popped entries keep a stale superset); violated if no group stays (C70_only_violated: the tier_groups setter ignores an empty list). Missing: tiers whose boundaries are not aligned, groups sharing entries."},
  {"property": "C71", "status": "partial", "theorems": ["ATG.C71_interleave_pop_partial", "ATG.C71_fresh_violated"], "note": "C70 applied to the result of C69, which is shown to meet its hypotheses (fitting tiers, no shared entries, linked classes); relations equal because containment determines them. Violated if a class of the name exists already (C71_fresh_violated: pop_class raises ValueError). Missing, as in C69 and C70: tiers whose boundaries are not aligned, groups sharing entries."},
  {"property": "C72", "status": "partial", "theorems": ["ATG.C72_same_gaps", "ATG.C72_group_cleanup_partial", "ATG.C72_twice_partial", "ATG.C72_construct", "ATG.C72_zero_violated", "ATG.C72_again_violated"], "note": "Groups of aligned tiers at positive times, complete or without their lowest tiers. Violated with a start of 0 (new intervals at the end of the tier) and, for the second cleanup, in a group without a tier for the highest class (AttributeError). Missing: groups without the highest tier, unaligned tiers."},
  {"property": "C73", "status": "partial", "theorems": ["ATG.C73_cleanup_partial", "ATG.C73_idle_partial", "ATG.C73_construct", "ATG.C73_padding_violated"], "note": "Aligned groups, complete or without their lowest tiers, without empty tiers, at positive times; if the extents agree all entries are related. Violated for the padding intervals, which are not related to each other until the next cleanup. The defects of C39 and C72 (zero-length padding, start of 0) apply. Missing: groups without the highest tier (a textgrid can have them only beside a group with it, C95), unaligned or empty tiers."},
  {"property": "C74", "status": "partial", "theorems": ["ATG.C74_import_partial", "ATG.C74_exact_partial", "ATG.C74_flat_partial", "ATG.C74_names_violated", "ATG.C74_middle_violated", "ATG.C74_gaps_partial"], "note": "Proved for interval tiers of hierarchies with plain, distinct names, complete or without their lowest classes, aligned and not empty; if no group has the highest class the import raises (C95), and beside a group with it a middle class raises (C74_middle_violated); for unaligned pairs of tiers see C89, for point tiers C83 and C88. Missing: other groups without the highest class, other unaligned and empty tiers. The statement fails when two hierarchies use one name for different classes: a tier is lost without an error (C74_names_violated)."},
  {"property": "C75", "status": "partial", "theorems": ["ATG.C75_empty_top_partial", "ATG.C75_levels_violated", "ATG.C75_again_violated"], "note": "proved for an empty top tier over aligned tiers; violated for two empty tiers on top (only one is filled, the next cleanup may raise)"},
  {"property": "C76", "status": "partial", "theorems": ["ATG.C76_ranges", "ATG.C76_outside", "ATG.C76_band", "ATG.C76_bands_tile", "ATG.C76_end_violated", "ATG.C76_level_violated", "ATG.C76_label_violated"], "note": "proved for levels inside ranges and levels 1 to 5; violated for a level at the end of the last range, for other levels and for labels that are not two numbers"},
  {"property": "C77", "status": "partial", "theorems": ["ATG.C77_common", "ATG.C77_none", "ATG.C77_start", "ATG.C77_prefix", "ATG.C77_all", "ATG.C77_name", "ATG.C77_speaker", "ATG.C77_kept", "ATG.C77_kept_violated", "ATG.C77_longest_violated", "ATG.C77_order_violated", "ATG.C77_identifier_violated", "ATG.C77_no_tiers"], "note": "proved: common part of all names, empty exactly without shared characters, the common start if nothing shared is longer, word characters only; violated: the longest common part, independence of the order, names of point groups kept, names that can be used as attributes"},
  {"property": "C78", "status": "partial", "theorems": ["ATG.C78_accessors", "ATG.C78_duplicates", "ATG.C78_stale_violated", "ATG.C78_renamed_violated", "ATG.C78_polar_names", "ATG.C78_speakers_violated"], "note": "proved for different and for duplicate names and for the names in a PolarGrid; violated: stale accessors, and two speakers in a PolarGrid"},
  {"property": "C79", "status": "partial", "theorems": ["ATG.C79_every_other", "ATG.C79_violated"], "note": "the property is violated (C79_violated); C79_every_other states exactly what happens instead, for lists of any length"},
  {"property": "C80", "status": "proved", "theorems": ["ATG.C80_numbered", "ATG.C80_distinct", "ATG.C80_violated", "ATG.C80_clone_violated"], "note": "for all histories that do not clone Top or Bottom and in which the user does not subclass them; without the condition violated (C80_violated, C80_clone_violated). Garbage collection of classes is not modelled."},
  {"property": "C81", "status": "partial", "theorems": ["ATG.C81_append_partial", "ATG.C81_construct_partial", "ATG.C81_names_violated", "ATG.C81_tier_names_violated"], "note": "proved for interval groups with complete hierarchies, aligned tiers that are not empty, and class-name lists that are equal or disjoint; where hierarchies share some names only, and for the names of tiers, the negation is proved with witnesses"},
  {"property": "C82", "status": "partial", "theorems": ["ATG.C82_append_partial", "ATG.C82_concat_partial", "ATG.C82_self", "ATG.C82_errors", "ATG.C82_clones_violated", "ATG.C82_negative_violated", "ATG.C82_shared_violated"], "note": "Proved for groups of aligned tiers whose second group has no negative time; violated for groups of different textgrids (the second is moved, then the error), negative times (overlap) and because the entries are shared by both groups afterwards."},
  {"property": "C83", "status": "partial", "theorems": ["ATG.C83_cleanup_partial", "ATG.C83_import_partial", "ATG.C83_only_points_violated", "ATG.C83_import_points_violated"], "note": "proved for textgrids with at least one hierarchy, complete or without its lowest classes, aligned gapless interval tiers of common extent (import) or agreeing interval groups (cleanup), and increasing point tiers; violated without interval groups; without the highest class in any group the import raises (C95); missing: lists of classes of both kinds, other groups without the highest class, empty, unaligned or uneven interval tiers"},
  {"property": "C84", "status": "partial", "theorems": ["ATG.C84_certain", "ATG.C84_level", "ATG.C84_status_partial", "ATG.C84_status_violated", "ATG.C84_override", "ATG.C84_override_violated"], "note": "proved for certainty, level and override of every label and the status of labels with * or ]; violated for the status of other labels and for the override of 0? and of the empty label"},
  {"property": "C85", "status": "partial", "theorems": ["ATG.C85_below", "ATG.C85_tiers", "ATG.C85_labels", "ATG.C85_extent", "ATG.C85_violated"], "note": "proved for every group of aligned related tiers and every tier without overlaps; violated for three unaligned levels"},
  {"property": "C86", "status": "partial", "theorems": ["ATG.C86_import_partial", "ATG.C86_outside_violated", "ATG.C86_no_levels_violated", "ATG.C86_no_ranges_violated", "ATG.C86_empty_levels", "ATG.C86_no_points_violated"], "note": "C86_import_partial is limited like C83_import_partial (gap-free, even interval tiers, hierarchies complete or without their lowest classes); the raising cases are proved"},
  {"property": "C87", "status": "partial", "theorems": ["ATG.C87_step_partial", "ATG.C87_history_partial", "ATG.C87_import_partial", "ATG.C87_same_partial", "ATG.C87_gaps_partial"], "note": "proved for edits possible for the plain data, from any editable textgrid and from an import of aligned tiers, tiers with gaps or pairs of tiers whose boundaries do not match, for hierarchies complete or without their lowest classes; where an edit is not possible (name already there, tier to copy missing or empty) see C36, C69 and C71; groups of points, and groups that have different numbers of classes of the same hierarchy, are missing"},
  {"property": "C88", "status": "proved", "theorems": ["ATG.C88_import", "ATG.C88_cleanup", "ATG.C88_flat_points", "ATG.C88_lost_violated", "ATG.C88_same_name_violated"], "note": "proved for every import that succeeds and every cleanup; what an interval group loses or whose names clash is shown by the violated cases"},
  {"property": "C89", "status": "partial", "theorems": ["ATG.C89_clipped", "ATG.C89_import_partial", "ATG.C89_result_partial", "ATG.C89_zero_violated"], "note": "Proved for groups of two tiers that cover the same time after 0 without gaps, where each upper entry owns a lower one, together with aligned groups. Missing: more than two mismatched tiers, upper entries without a lower one, tiers with gaps, point tiers. Fails for tiers that start at 0 (C89_zero_violated)."},
  {"property": "C90", "status": "partial", "theorems": ["ATG.C90_gaps_violated", "ATG.C90_step_partial", "ATG.C90_history_partial", "ATG.C90_mild_partial", "ATG.C90_import_partial", "ATG.C90_pop_violated", "ATG.C90_left_violated"], "note": "single edits, any number of edits in any order, and edits after an import, for hierarchies complete or without their lowest classes. If groups have different numbers of classes of the same hierarchy, only the edits that keep the tiers are covered (fusing, relabelling, shifting). Fusing across a former word boundary after popping the top class raises (C90_pop_violated); fusing leftwards on the first tier makes a later fuse_rightwards raise and leave overlapping intervals (C90_left_violated); after an import of tiers with gaps, fusing on the first tier passes over the blank that filled a gap, or raises (C90_gaps_violated). What is not possible for the plain data is refused (C94). Not covered: fuse_leftwards on the first tier, intervals that do not touch, the label \"#\" (C17_hash_violated), tiers with gaps before they are exported and read again (C91)."},
  {"property": "C91", "status": "partial", "theorems": ["ATG.C91_both_partial", "ATG.C91_same_partial", "ATG.C91_session_partial", "ATG.C91_reload_partial", "ATG.C91_custom_partial", "ATG.C91_gaps_partial"], "note": "proved for imports and edits as in C90 (covering tiers) and for imports with gaps or unmatched boundaries and edits as in C87 (C91_gaps_partial), for a second session whose heap is tidy; what praatio does with the exported tiers (blanks at the ends of labels, refusing equal names, files) is not modelled C91_both_partial: the same after edits as in C99, and reading the exported textgrid makes both directions of fusing possible again."},
  {"property": "C92", "status": "partial", "theorems": ["ATG.C92_walk", "ATG.C92_first", "ATG.C92_last", "ATG.C92_lowest", "ATG.C92_tier", "ATG.C92_point", "ATG.C92_import_partial"], "note": "proved for all groups whose tiers fit together and are related by containment, for tiers without overlaps and for points; C92_import_partial, for imported and edited textgrids, is limited as C90 is"},
  {"property": "C93", "status": "partial", "theorems": ["ATG.C93_new_partial", "ATG.C93_again_violated", "ATG.C93_upwards_partial", "ATG.C93_refused", "ATG.C93_violated"], "note": "Violated as stated (C93_violated; C93_again_violated for every interval that is there already). C93_new_partial is the exact result for every new interval, which has the property when the list was empty; the upward sum and the refusals are proved. The copy and its original are one reference in the model, because they share their attribute dictionary; an interval x that belongs to a third interval is not covered by C93_new_partial."},
  {"property": "C94", "status": "partial", "theorems": ["ATG.C94_first_partial", "ATG.C94_firstDecided_partial", "ATG.C94_leftwards_partial", "ATG.C94_index", "ATG.C94_right_partial", "ATG.C94_left_partial", "ATG.C94_decided_partial", "ATG.C94_attempts_partial", "ATG.C94_import_partial"], "note": "Refusals to the right, to the left and for places that do not exist, with the heap unchanged; the decision between possible and refused; any list of attempts; and the same from the import on. On first tiers, the first interval cannot be fused leftwards (C94_first, C94_firstDecided, C94_leftwards) unless the tier has been fused rightwards before. Not covered: then, as a failed fusion can leave overlapping intervals behind (C18_chain_violated, C90_left_violated, C99_right_violated), first tiers whose intervals do not touch (for C94_decided and C94_attempts), and label functions that return the boundary mark (C17_hash_violated)."},
  {"property": "C95", "status": "proved", "theorems": ["ATG.C95_import", "ATG.C95_append"], "note": "Import for every class argument and all tiers; append for textgrids without classes of their own. The classes are those of hierarchies with plain, different names."},
  {"property": "C96", "status": "partial", "theorems": ["ATG.C96_both_partial", "ATG.C96_bothImport_partial", "ATG.C96_idle_partial", "ATG.C96_session_partial", "ATG.C96_history_partial", "ATG.C96_import_partial", "ATG.C96_kept_partial", "ATG.C96_anytime_partial", "ATG.C96_wherever_partial", "ATG.C96_pop_violated"], "note": "for textgrids imported and edited as in C90 and C99; cleanups at any time, also after the first tier of a group was popped or fused leftwards"},
  {"property": "C97", "status": "partial", "theorems": ["ATG.C97_built_partial", "ATG.C97_order_partial", "ATG.C97_order_violated", "ATG.C97_within_violated"], "note": "Exact result for phones in order of time, equal to set_phones except for within/contains; any order without a start of 0. Violated: within is not set, and the order matters with a start of 0 (witnesses)."},
  {"property": "C98", "status": "partial", "theorems": ["ATG.C98_import_partial", "ATG.C98_fits", "ATG.C98_append_partial", "ATG.C98_violated", "ATG.C98_statement_violated", "ATG.C98_append_violated"], "note": "proved for textgrids imported and edited as in C90, with the exact condition under which group.append lets a tier in (C98_fits for any heap); violated when groups of one hierarchy have different classes (witnesses, with the refused and the half-appended tier)"},
  {"property": "C99", "status": "partial", "theorems": ["ATG.C99_step_partial", "ATG.C99_history_partial", "ATG.C99_mild_partial", "ATG.C99_import_partial", "ATG.C99_right_violated"], "note": "Proved for every import of covering aligned tiers and every sequence of edits: a first tier can be fused leftwards as long as it has not been fused rightwards since it became the first one, and the other way round; all other edits in between. Missing: fusing in both directions, which is shown to fail (C90_left_violated, C99_right_violated), and what is missing in C90."},
  {"property": "C100", "status": "partial", "theorems": ["ATG.C100_shows", "ATG.C100_new", "ATG.C100_again", "ATG.C100_workable", "ATG.C100_import_partial", "ATG.C100_both_partial", "ATG.C100_errors", "ATG.C100_violated", "ATG.C100_statement_violated"], "note": "Proved for every new or re-related group of tiers that know the neighbours of their classes, the error cases, and every import of covering aligned tiers followed by any edits. Missing: edits of tiers when groups with a class in common have different classes, which is shown to fail (C100_violated), and what is missing in C90."},
  {"property": "C101", "status": "partial", "theorems": ["ATG.C101_tidy", "ATG.C101_editable", "ATG.C101_workable", "ATG.C101_import_partial", "ATG.C101_gaps_partial", "ATG.C101_point", "ATG.C101_violated", "ATG.C101_beyond_violated", "ATG.C101_statement_violated"], "note": "superset shown: every tidy heap; agreement with the data: imports of aligned tiers with edits of C99, tiers with gaps or unmatched boundaries with edits of C87; repr of strings (quotes) is a parameter; violated for phones after the last word and for a superset given an empty list"},
  {"property": "C102", "status": "partial", "theorems": ["ATG.C102_meant", "ATG.C102_last", "ATG.C102_list", "ATG.C102_list_refused", "ATG.C102_history_partial", "ATG.C102_import_partial", "ATG.C102_attempts_partial", "ATG.C102_tries_partial"], "note": "a single edit and the last interval: every textgrid, all integers; sequences of edits: those of C99 on imports of aligned covering tiers; attempts: as C94"},
  {"property": "C103", "status": "partial", "theorems": ["ATG.C103_workable", "ATG.C103_import_partial", "ATG.C103_editable", "ATG.C103_gaps_partial", "ATG.C103_returned", "ATG.C103_import_returned_partial", "ATG.C103_ids", "ATG.C103_gap_violated", "ATG.C103_ids_violated", "ATG.C103_statement_violated"], "note": "frames without subsets that are returned, for imports and edits of C99; without ids and places for tiers with gaps or unmatched boundaries and edits of C87; returned exactly when nothing is empty and no id raises; ids different for entries under the textgrid; missing: that no id raises after edits, frames with subsets; violated for gap fillers, and for ids in incomplete groups"},
  {"property": "C104", "status": "proved", "theorems": ["ATG.C104_export", "ATG.C104_intervals"], "note": "every heap; the names under which tiers are exported are the subject of C37"}
]}
