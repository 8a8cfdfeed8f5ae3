# Formal model of `aligned_textgrid`

Lean 4.33.0, project in `/verif/lean`. The properties are listed in `properties.jsonl` (C01, C02, ...);
the status of each and the exact theorem names are in `MANIFEST.json`.

## Layout

| path | content |
|---|---|
| `lean/Verif/Model/*.lean` | the model, one definition per modelled function; every definition cites file and lines |
| `lean/Verif/Spec/*.lean` | small specifications used by the property statements, independent of the model's helpers |
| `lean/Verif/Lemmas/*.lean` | helper lemmas |
| `lean/Verif/Props/*.lean` | the property theorems, named `Cnn_...`, with a non-vacuity example beside each |
| `seeded/LOG.jsonl` | mutation attempts against the theorems |

## How the code is modelled

* **Objects** live in a heap with one function per attribute (`Heap`): entries (`SequenceInterval` and
  `SequencePoint`), tiers and groups are numbers; `start`, `stop`, `label`, `fol`, `prev`, `subs`
  (`_subset_list`), `sup` (`super_instance`), `intier`, `within`, `cont` (`_contains`) are functions.
* **Mutating functions** become `Heap → Res α`. An exception carries the heap at the point where it was
  raised, so "raises and changes nothing" is expressible.
* **Loops** are folds or structural recursion. **Recursion** of the code that is not obviously bounded
  takes a fuel argument; running out of fuel is `recursionError`. Either enough fuel is proved to exist
  or divergence is proved for every fuel.
* **Client programs** (`Model/Program.lean`): `Call` is one constructor per modelled public operation,
  `execute` runs a list of them; an operation that raises leaves its changes and the program carries on,
  as with `try`/`except`. C61 and C62 quantify over all such programs.
* **Classes** are numbers with a table of base class, name, own `superset_class` and `subset_class`
  (attribute lookup goes through the base class, as in Python).

## Simplifications (the model is silent about these)

* Times are exact rationals: no rounding, NaN, infinity. `np.allclose` is
  `|a - b| <= 1e-8 + 1e-5 * |b|` with numpy's broadcasting.
* `None` as a time or label of a user-made entry, and tuples of a wrong length, are not modelled.
* Boundary objects (label `"#"`, made by `set_initial`/`set_final`) are identified with one value
  `Link.bumper`. An entry the *user* labels `"#"` is still an ordinary object with the special
  behaviour the code gives it.
* A point is an entry with `start = stop = time` and a class below `SequencePoint`.
* `np.argsort` may order equal starts arbitrarily; the model sorts stably.
  `np.searchsorted` on a list that is not sorted is modelled as "number of leading smaller elements".
* Warnings (text and emission) are not modelled unless a property mentions them.
* Multiple inheritance is reduced to the one base-class chain that carries `superset_class` and
  `subset_class`; `__subclasses__` is computed from the class table.
* Reading and writing TextGrid files (praatio) is not modelled: `return_tier` is the list of triples
  handed to praatio; praatio's own checks (overlap, order) are outside.
* polars data frames are modelled as lists of rows.

## Trusted base

* The Lean 4.33.0 kernel; axioms at most `propext`, `Classical.choice`, `Quot.sound`
  (the axioms of every property theorem are listed at the end of this file).
* Reading of the Python source: model and code are tied only by the citations; the code was not run.
* Semantics assumed for Python (identity, truthiness by `__len__`, attribute lookup, exceptions),
  numpy (`min`, `max`, `argmax` = first maximum, `unique`, `isin`, `allclose`, `searchsorted`)
  and praatio's `Interval`/`Point` named tuples.

Not modelled: `__repr__` of lists, the quoting of strings by `repr`, `save_*`, pickling (`__setstate__`), `set_feature`, file
input, `praatio`, `polars` internals.

## Coverage by source file

| file (`/repo/src/aligned_textgrid`) | model | not modelled |
|---|---|---|
| `sequence_list.py` | `Model/SeqList`, `Model/Concat` | `__repr__`; the `starts`/`ends`/`labels` accessors are `List.map` |
| `mixins/within.py` | `Model/Within` | |
| `mixins/mixins.py` | `Model/SeqList`, `Model/Core`, `Model/Points` (distances), `Model/Ends` (`first`, `last`); `set_fol`, `set_prev` in `Model/SeqList` | |
| `mixins/tiermixins.py` | `Model/Tier` (`append`), `Model/Ends` (`first`, `last`), `Model/Concat` (`concat`), `Model/Compose` (`+`, group `append`), `Model/Group` (`re_relate`), `Model/Textgrid` (tier accessors), `Model/Names` (group names; `difflib` without its automatic junk) | in the heap model a generated group name is a parameter |
| `sequences/sequences.py` | `Model/Core`, `Model/Interval`, `Model/Sum` (`+`), `Model/Classes`, `Model/Iter`, `Model/Repr` (`__repr__`) | `set_feature`; the identity of the copy that `+` returns; `index`, `__contains__`, `__getitem__` are those of the subset list |
| `sequences/tiers.py` | `Model/Tier`, `Model/Group`, `Model/Compose` (lookup of groups), `Model/Show` (`show_structure`, `__repr__` of tiers; lines printed before an error are dropped), `Model/Repr` (`__repr__` of groups) | `save_as_tg`, `__setstate__` |
| `sequences/word_and_phone.py` | the classes `cWord`, `cPhone` of the initial class table; `Model/WordPhone` (`set_word`, `inword`, `set_phones`, `phone_list`, `phones`) | |
| `points/points.py`, `points/tiers.py` | `Model/Points`, `Model/Repr` (`__repr__`) | `save_as_tg` |
| `custom_classes.py` | `Model/Classes` | |
| `aligned_textgrid.py` | `Model/Textgrid`, `Model/Compose` (lookup), `Model/Repr` (`__repr__`) | reading and saving files, `__setstate__` |
| `polar/*.py` | `Model/Polar` (levels, turning points, ranges, bands, labels), `Model/PolarGrid` (`PolarGrid.__init__`), `Model/Names` (names of groups) | class names that hide other attributes of a `PolarGrid` |
| `outputs/to_dataframe.py` | `Model/DataFrame` | polars itself |

## Mutation tests

`seeded/LOG.jsonl` records each wrong program tried: the definition, the edit, and the theorems whose
proofs failed. The runs happen in a scratch copy outside `/verif`. Only in that copy, closed statements
proved by `decide +kernel` are evaluated with compiled code, because a false one can exhaust the memory of
the kernel before it fails; the theorems in this repository are checked by the kernel alone.

## Plan per property

"Violated" marks properties the code does not satisfy: the negation is proved with a concrete witness
and a `_partial` theorem gives the part that holds.

| id | modelled | how it is proved |
|---|---|---|
| C01 | `SequenceList.__init__`, `_sort` | induction on the list: result is a permutation, sorted; error branch by cases |
| C02 | `__contains__` | unfolding to the independent statement over identity / tuple equality |
| C03 | `__add__` | from C01 plus the filter; the class error branches by cases |
| C04 | `append` | violated when a start is 0: witness; partial: sorted insertion under non-zero starts |
| C05 | `append` | membership after append |
| C06 | `remove`, `pop` | violated for subset lists with value-equal twins: witness; otherwise first-match index lemmas |
| C07 | `concat` on a list object whose `_values` may be a wrapped list | violated: witness that the next `append`/`remove` raises, and for empty b every access diverges; partial: contents |
| C08 | `_check_no_overlaps` | counting argument over the n x n matrix; zero-duration witness shows why duration must be positive |
| C09 | `set_fol`/`set_prev` with fuel | violated in a state left by fusing: witness; otherwise case analysis, exact resulting heap, fuel 3 suffices |
| C10 | `_set_subset_precedence` | induction on the list with arbitrary prior pointers |
| C11 | `SequenceTier.__init__`, `__set_precedence` | C01 + C10's induction with `intier` |
| C12 | `InstanceMixins` operations as a step function | violated by `set_super_instance` and direct `set_subset_list`: witnesses; partial: invariant by induction over histories without them |
| C13 | same | violated by `append` of a superclass instance: witnesses; otherwise invariant over histories, error branches by cases |
| C14 | same | equational specification of re-parenting |
| C15 | `validate` | iff with a spec over adjacent pairs |
| C16 | `SequenceInterval.cleanup` | violated when the insertion falls under C04's zero case; partial otherwise |
| C17, C18 | `fuse_rightwards`/`leftwards`, `SequenceTier.pop`, `SequenceList.remove` | equational specification; C18 violated for custom/Word top tiers and outside tiers: witness; partial where it holds |
| C19 | `get_interval_at_time` | uniqueness of the index from non-overlap |
| C20 | `xmin`, `xmax` | induction on the fold |
| C21 | `SequenceTier.cleanup` | violated when a start is 0: witness; otherwise the exact list of fillers by induction on the gaps |
| C22 | `_arrange_tiers` with fuel | induction along the class chain; cyclic class and dropped tier as witnesses |
| C23 | overlap matrix, `argmax`, slices | supermodularity of the overlap |
| C24 | `TierGroup.__init__` relation loop | from C23 and C10 |
| C25 | same | violated after a blank interval is appended to the lower tier: witness; partial: C24 |
| C26 | same | violated when a gap is filled: witness; partial: gap-free slices |
| C27, C28 | `_shift`, `shift` | exact resulting heap |
| C29 | `TierMixins.append` with fuel | violated: divergence for every fuel on a witness; partial: without value-equal copies the nesting is bounded at any depth, by a descent on the pairs of tier and entry not on it |
| C30 | `set_superset_class`, `set_subset_class` | violated for names containing Top/Bottom and by inheritance: witnesses; otherwise case analysis |
| C31, C32 | `custom_classes` | induction on the name list; C31 violated for such names, C32 for 3-cycles: witnesses |
| C33, C34 | `clone_class`, `get_class_hierarchy` | induction along the chain; C33 violated for names containing Top/Bottom |
| C35 | `_extend_classes`, `_nestify_tiers` | arithmetic on indices |
| C36 | `interleave_class`, `pop_class` | violated when the textgrid is not restored: witness; class links by case analysis |
| C37 | `return_textgrid` naming loop | violated: witness; partial: when no own name equals a generated one |
| C38 | `return_tier`, `SequenceTier.__init__` | sorted lists are fixed points of the sort |
| C39 | `AlignedTextGrid.cleanup` | violated: witness with a zero-length interval; partial on extents |
| C40, C41 | `within_index`, `within_path`, `id` | violated for entries their container does not list: witnesses; otherwise induction on depth and injectivity of joining decimal strings |
| C42, C43 | `points/tiers.py`, `points/points.py` | induction; C43 violated at time 0: witness |
| C44 | extents of groups | C20; violated for `PointsGroup.xmax`: witness |
| C45 | `SequencePointTier.__init__` | as C11, subject to C04 |
| C46, C47 | `outputs/to_dataframe.py` | induction on trees; violated for orphans, empty tiers and equal class names: witnesses |
| C48 | `__iter__`/`__next__` | violated for nested loops: witness; partial: single loop |
| C49 | `tier_index`, `get_tierwise` | list index lemmas, negative index wrap |
| C50 | `polar_classes.py` | case analysis and C42 |
| C51 | `_cast` | exact resulting heap |
| C52 | `_set_tier_names` | association lists |
| C53 | point tier `append` | violated: neighbours are not linked; order as in C04 |
| C54 | `TierGroupMixins.concat` on points | violated for every group with a point (points have no `super_instance`) |
| C55 | `SequenceTier.cleanup` | violated for every tier with a real gap: fillers are unlinked |
| C56 | `get_class_hierarchy` default argument | violated (the list is shared between calls); the exact result is proved |
| C57 | class links over histories | violated: reachable witness |
| C58 | `get_interval_at_point` | from C19 |
| C59 | tier `concat` | violated for an empty second tier (RecursionError); otherwise exact result |
| C60 | `TierGroup.__init__` on tiers that do not match | exact boundaries; violated for lower intervals outside all upper ones and for three levels |
| C61, C62 | all public operations (`Model/Program`) | one preserved relation per operation (`Lemmas/Program`, `Lemmas/Ops`), induction on programs; C62 violated by fusing and by assigning labels |
| C63 | `starts=`, `ends=` | exact resulting heap; violated: the order is not kept |
| C64 | `get_intervals_at_time` and `__getitem__` of groups and textgrids | composition of C19 over the tiers; `chain_at` for related tiers; violated where a tier has no interval |
| C65 | tier `+` | exact resulting heap `tierAdd_ok`, for point tiers through `pointTierInit_ok`; violated for the operands' `intier` and for two empty tiers |
| C66 | group `+` | induction over the pairs of tiers, `Aligned.append`, then C24; violated for groups at the same time |
| C67 | group `append` | the fit tests pass for the missing tier of a chain, then C24; violated for cloned classes and point tiers |
| C68 | `_extend_classes`, `_nestify_tiers` | the positions followed down are those of the hierarchy; violated when a hierarchy is listed again |
| C69 | `interleave_class` on tiers | a copied tier between aligned tiers is aligned with both, then C24 group by group; the other groups are framed; violated for empty tiers |
| C70 | `pop_class` on tiers | alignment is transitive across the popped tier, then C24 for the kept tiers group by group; popped entries keep a superset that no longer lists them, so tidiness is required of the kept entries only; violated if no group stays |
| C71 | `interleave_class`, then `pop_class` | C70 after C69: the interleaved groups fit together and share no entry; containment determines the relations, so they are those of before; violated for a name already in use |
| C72 | group `cleanup` | aligned tiers have the same gaps, so the fillers of one tier are aligned with those of the next; the recursion of `SequenceTier.cleanup` ends in `re_relate`, which is C24; violated with a start of `0` and for a second cleanup of a group without its highest class |
| C73 | textgrid `cleanup` | C72 group by group, each run framed to the entries of its group; the extents stay, so C39 gives the padding; violated for the relations of the padding intervals |
| C74 | `AlignedTextGrid(textgrid, classes)` | the classes are cloned hierarchy by hierarchy (C33), the groups built one after the other on a heap framed to the earlier ones (C24), then C73; violated for two classes of one name |
| C75 | `TierGroup.cleanup` with an empty top tier | one run of `_project_up` per orphan on an invariant (the intervals made so far have the times of the ones done), then the stack of C72; violated for two empty tiers |
| C76 | levels and ranges of a `PolarGrid` | fold over the levels with `get_interval_at_point`; `linspace` in `Rat`; parsing of numbers is a parameter |
| C77 | names of groups | `difflib`'s matching blocks: every block found, and every join of blocks, is a common part; a first candidate that nothing beats stays |
| C78 | named accessors of a textgrid, names in a `PolarGrid` | attributes as a function from names; induction over the groups |
| C79 | giving an interval the subset list of another | the loop over the live list as a loop with a position; equal to adopting every other entry |
| C80 | names of tops and bottoms are numbered in order of creation, so distinct | invariant of all class-making calls; violated if `Top` is cloned or subclassed by the user |
| C81 | appending a group keeps everything but the classes, which are the textgrid's own; same names, same class | invariant over the appends; violated where hierarchies share only some names (a tier is lost) and for tier names |
| C82 | appending an interval brings its parts to the tiers below; joining groups joins each pair of tiers, moved by the end of the first | induction over the levels, then over the words of the second group; violated across textgrids, for negative times, and by sharing of the entries |
| C83 | importing and cleaning up textgrids with point tiers keeps every point and every link between points | points groups are built beside the interval groups and the sweep of `cleanup()` never reaches their tiers or entries; violated without interval tiers: `cleanup()` raises, so a textgrid of nothing but points cannot be imported |
| C84 | certainty, status, level and override read off the labels of PoLaR points | string functions, by cases and by induction on the splitting; violated for labels without `*` and `]` and for the override of `0?` |
| C85 | durations of the levels below an interval add up to its own; tiers of a group have the same total; `phones` of all words are the labels of the phone tier | induction over the levels on C24's alignment; violated for unaligned tiers of three levels |
| C86 | `PolarGrid(textgrid, classes)`: attributes, ranges, turning points; what raises | C83 (import), C76 (ranges), C50 (turning points); positions in flattened lists |
| C87 | any number of `interleave_class`, `pop_class` and `shift` do to a textgrid's plain data what the edits written for plain data do, and never raise where these are possible | an invariant of textgrids (`Editable`: groups related by containment, own classes, classes named once per group) kept by each edit, C69–C71 for one edit, C74 for the start, C89 for a start from tiers with gaps or unmatched boundaries |
| C88 | the groups an import makes, their kinds, order, names and classes, for any tiers and classes whatever; what `cleanup()` keeps in any case | frame relations kept by every operation also when it raises (`Trims`, `Older`); induction over the tiers and lists |
| C89 | importing two-tier groups whose boundaries do not match gives the result of importing what the tiers have in common; that is unique; gaps are filled in place | the ownership of lower entries stated by the greatest common time (`Divided`), independent of the snapping code; the heap after relating equals that of the clipped tiers (`Heap.retime`) |
| C90 | fusing, relabelling, interleaving, popping and shifting an imported textgrid, in any order and number, do to the plain data what they should; fusing across a former boundary after popping the top class raises; fusing leftwards on the first tier makes a later fuse raise; fusing beside a filled gap overlaps or raises | `Change.act` on plain data (names, times, labels, one mark per group) says what should happen, without heap, relations or tiers; the programs are followed from the import on; `C90_pop_violated`, `C90_left_violated` and `C90_gaps_violated` are concrete programs |
| C91 | the export of an edited textgrid is good for import again, and the second import has the same data; also for textgrids made from tiers with gaps or unmatched boundaries | `returnTextgrid` is compared with the plain data of C90 and with the hypotheses of C74, neither of which mentions it; the second session has any tidy heap and any class table; `C91_same_partial` compares with the Praat tiers given |
| C92 | `first` and `last` are the ends of the intervals inside an interval, at every depth | the theorem speaks of times, containment and `fol`, not of the subset list from which the code takes both |
| C93 | `w + x` for intervals: only a word without phones keeps what it should | the copy and its original share all attributes, so one reference stands for both, and the identity test that tells them apart is replaced by its value for a new object; then induction on the list that is taken over |
| C94 | fusions that would cross a boundary of the tier above or the end of the tier, and places that do not exist: an exception, and no change at all; programs that try any edits and catch the exceptions | the subset list of the interval above is the part of the tier inside it, so at a boundary the interval is the first or last of a linked list; first tiers are followed by the boundary mark, which all edits of C90 keep; each edit is decided by the plain data; induction on the attempts |
| C95 | classes given without the highest class of their hierarchy: `ValueError`, and nothing made | the clones come from the hierarchies whose highest class is given, so by the different names none has the name of such a class, and the lookup by name in `_swap_classes` fails |
| C96 | `cleanup()` between edits is harmless: it keeps the plain data and all later edits, and changes nothing at all while every group has a first tier that was built or interleaved | the entries of such first tiers are within the tier, those of the others within an interval, so the scan finds nothing; a first tier left by `pop_class` is scanned and its group related anew, which finds the same supersets and subsets (`groupCleanup_kept`); the plain data goes without gaps from one time to another, so that no tier is loose and all extents agree |
| C97 | new phones given to a word one by one or at once leave the same word; violated for `within` and, with a start of 0, for the order | `setSuper_new`: one phone, including the detour by `remove_superset` when the word has phones already (an interval with parts is truthy); then induction over the list, in order of time or, without a start of 0, by insertion in a sorted list |
| C98 | tiers have the current neighbours of their class written down, and `append` lets in exactly the missing classes; violated for groups with different classes of one hierarchy | the invariant of C90 (`Homed.fresh`), then a case analysis of the two tests of `append` with the links of the classes; witness by evaluation |
| C99 | fusing first tiers leftwards, among all edits of C90; fusing a first tier in both directions raises half-way and leaves overlapping words | a second draft beside that of C90 has marks that say that the first tier is chained backwards (`Backed`), which the import gives (`Homely.back`); `C99_right_violated` and `C90_left_violated` are concrete programs |
| C100 | `show_structure` and the `repr` of tiers name the present neighbours of their classes | spec: a stair of names, indented by their place (`Spec/Stair`), along a chain of classes; violated like C98: the group left alone by `interleave_class` shows phones below words where syllables are |
| C101 | `repr` of intervals, groups and textgrids agrees with the plain data | spec: a portrait from the rows of the page alone, by containment of times (`Spec/Portrait`); the row above is unique as rows of a tier do not overlap, and the last tier has no subsets (`lastSubs_nil`); the quoting of strings by `repr` is a parameter; violated for an interval whose superset was given an empty subset list, which counts as false; with gaps or unmatched boundaries by `ClassLinks.descent` and the edits of C87; violated for phones after the last word |
| C102 | negative indices at the three levels of `atg[i][j][k]` | spec: a number by its constructors, counted in the lengths of the plain data (`Spec/Signed`); model: `pyGet`, as Python lists index; the two agree by `pyGet_counted`, the back is the reversed list (`counted_reverse`); histories reduce to C99 step by step; a list of numbers indexes every tier of a group, each from its own end (`groupGetInt`, `C102_list`, `C102_list_refused`) |
| C103 | the data frame without subsets of an imported and edited textgrid | spec: a table of the page alone (`Spec/Table`); conditional on the frame being returned, as ids need containers, which the invariants of editing leave out; places by `Homed.home` and `findIdx_nodup`; with gaps all columns but id and place (`C103_editable`); violated for gap fillers, which know no tier (`C103_gap_violated`); when a frame is returned is characterised for every heap (`C103_returned`); ids are different by C41 for entries under the textgrid (`C103_ids`), not for groups of words alone (`C103_ids_violated`) |
| C104 | `to_df(atg, with_subset=False)` and `return_textgrid` | both are one list over the entries of the tiers (`frame_cells`, `exported_entries`), no hypotheses on the heap |

## Axioms of each theorem

From `#print axioms`, for every theorem in `MANIFEST.json` (namespace `ATG`).

**none** (2): `C01_empty`, `C51_kind`

**`Classical.choice`, `Quot.sound`, `propext`** (394): `C01_construct`, `C01_construct_sorted`, `C01_order_unique`, `C03_add`, `C03_add_nothing`, `C03_add_empty`, `C04_violated`, `C04_append_partial`, `C05_append_count`, `C06_violated`, `C06_subset_remove_partial`, `C06_tier_remove`, `C07_concat_partial`, `C07_concat_onto_empty`, `C07_nothing_new_violated`, `C07_remove_violated`, `C07_plain_remove`, `C07_append_violated`, `C08_overlap`, `C09_violated`, `C10_set_subset_list`, `C10_history`, `C11_tier_init`, `C12_violated_set_super_instance`, `C12_violated_set_subset_list`, `C12_violated_copy`, `C12_history_partial`, `C12_one_superset_partial`, `C13_violated_accepts`, `C13_violated_unchanged`, `C13_history_partial`, `C14_append`, `C14_append_subset`, `C14_assign`, `C14_append_subset_within`, `C15_validate`, `C16_fills_partial`, `C16_validate_violated`, `C16_overhang_violated`, `C16_empty`, `C17_right_partial`, `C17_left_partial`, `C17_right_loose_partial`, `C17_left_loose_partial`, `C17_hash_violated`, `C17_chain`, `C18_right_partial`, `C18_left_partial`, `C18_right_violated`, `C18_left_violated`, `C18_chain_violated`, `C18_loose_violated`, `C19_interval_at`, `C19_interval_at_error`, `C20_xmin`, `C20_xmax`, `C20_within`, `C21_clean`, `C21_fills_partial`, `C21_zero_violated`, `C21_tolerance_violated`, `C22_order`, `C22_adjacent`, `C22_dropped_violated`, `C22_cycle_violated`, `C23_greatest`, `C23_monotone`, `C23_partition`, `C23_enclosed_violated`, `C24_aligned`, `C24_construct`, `C24_again`, `C25_boundaries_partial`, `C25_empty_violated`, `C25_append_violated`, `C26_on_tier_partial`, `C26_gap_violated`, `C26_tolerance_violated`, `C27_tier`, `C27_group`, `C27_textgrid`, `C27_compose`, `C27_inverse`, `C27_preserves`, `C27_shared_entry`, `C28_interval`, `C29_diverges_violated`, `C29_down_partial`, `C29_up_partial`, `C29_bounded_partial`, `C29_terminates_partial`, `C29_gains_partial`, `C30_terminates`, `C30_set_superset_partial`, `C30_set_subset_partial`, `C30_rejects`, `C30_name_violated`, `C30_never_self_partial`, `C30_self_violated`, `C31_custom_classes_partial`, `C31_name_violated`, `C31_repeated_violated`, `C31_empty`, `C32_names_violated`, `C32_names_partial`, `C32_indices`, `C33_clone_partial`, `C33_not_top`, `C33_name_violated`, `C35_split`, `C35_exact`, `C35_leftover`, `C36_interleave_partial`, `C36_pop_partial`, `C36_round_trip_partial`, `C36_edge_violated`, `C36_failed_violated`, `C37_distinct_partial`, `C38_import`, `C38_round_trip`, `C39_agree_partial`, `C39_pads_partial`, `C39_zero_always`, `C39_zero_violated`, `C39_xmax_violated`, `C39_points_violated`, `C40_path`, `C40_distinct`, `C40_prefix`, `C40_computed`, `C40_group_partial`, `C40_incomplete_violated`, `C40_popped_violated`, `C41_path`, `C41_same_partial`, `C41_violated`, `C42_nearest`, `C43_distance_partial`, `C43_zero_violated`, `C43_built`, `C43_distance_from`, `C44_group_xmin`, `C44_group_xmax`, `C44_points_violated`, `C44_points_partial`, `C44_textgrid_xmin`, `C44_textgrid_xmax_partial`, `C45_construct`, `C45_interval`, `C46_entry`, `C46_exactly_one`, `C46_tier`, `C46_lost_violated`, `C46_same_name_violated`, `C49_position`, `C49_out_of_range`, `C49_wraps`, `C49_built`, `C50_related`, `C50_no_points`, `C50_not_mutual`, `C53_order_partial`, `C53_unlinked_violated`, `C54_violated`, `C55_clean_partial`, `C55_violated`, `C56_default_violated`, `C56_default_partial`, `C57_stale_violated`, `C58_interval_at_point`, `C59_tier_partial`, `C59_empty_violated`, `C59_unrelated`, `C60_snap`, `C60_gap`, `C60_tiles`, `C60_negative_violated`, `C60_levels_violated`, `C61_inward`, `C61_still`, `C61_labels`, `C61_fuse_sharp`, `C62_noSelf_partial`, `C62_hash_partial`, `C62_reachable_partial`, `C62_fuse_violated`, `C62_label_violated`, `C63_order_violated`, `C64_group`, `C64_chain`, `C64_none_violated`, `C64_textgrid`, `C65_sum_partial`, `C65_empty_left`, `C65_operands_violated`, `C65_empty_violated`, `C65_points_partial`, `C66_sum_partial`, `C66_rejects`, `C66_kept_partial`, `C66_overlap_violated`, `C67_append_partial`, `C67_rejects_kind`, `C67_rejects`, `C67_dropped_violated`, `C67_points_violated`, `C67_textgrid_partial`, `C67_unknown`, `C68_hierarchies_partial`, `C68_repeated_violated`, `C69_interleave_partial`, `C69_empty_violated`, `C70_pop_partial`, `C70_only_violated`, `C71_interleave_pop_partial`, `C71_fresh_violated`, `C72_same_gaps`, `C72_group_cleanup_partial`, `C72_twice_partial`, `C72_construct`, `C72_zero_violated`, `C72_again_violated`, `C73_cleanup_partial`, `C73_idle_partial`, `C73_construct`, `C73_padding_violated`, `C74_import_partial`, `C74_exact_partial`, `C74_flat_partial`, `C74_names_violated`, `C74_middle_violated`, `C74_gaps_partial`, `C75_empty_top_partial`, `C75_levels_violated`, `C75_again_violated`, `C76_ranges`, `C76_outside`, `C76_band`, `C76_bands_tile`, `C76_end_violated`, `C76_level_violated`, `C76_label_violated`, `C77_common`, `C77_none`, `C77_start`, `C77_prefix`, `C77_all`, `C77_name`, `C77_speaker`, `C77_kept`, `C77_kept_violated`, `C77_longest_violated`, `C77_order_violated`, `C77_identifier_violated`, `C77_no_tiers`, `C78_accessors`, `C78_duplicates`, `C78_stale_violated`, `C78_renamed_violated`, `C78_polar_names`, `C78_speakers_violated`, `C79_every_other`, `C79_violated`, `C80_numbered`, `C80_distinct`, `C80_violated`, `C80_clone_violated`, `C81_append_partial`, `C81_construct_partial`, `C81_names_violated`, `C81_tier_names_violated`, `C82_append_partial`, `C82_concat_partial`, `C82_self`, `C82_errors`, `C82_clones_violated`, `C82_negative_violated`, `C82_shared_violated`, `C83_cleanup_partial`, `C83_import_partial`, `C83_only_points_violated`, `C83_import_points_violated`, `C84_status_partial`, `C84_status_violated`, `C84_override_violated`, `C85_below`, `C85_tiers`, `C85_labels`, `C85_extent`, `C85_violated`, `C86_import_partial`, `C86_outside_violated`, `C86_no_levels_violated`, `C86_no_ranges_violated`, `C86_empty_levels`, `C86_no_points_violated`, `C87_step_partial`, `C87_history_partial`, `C87_import_partial`, `C87_same_partial`, `C87_gaps_partial`, `C88_import`, `C88_cleanup`, `C88_flat_points`, `C88_lost_violated`, `C88_same_name_violated`, `C89_clipped`, `C89_import_partial`, `C89_result_partial`, `C89_zero_violated`, `C90_gaps_violated`, `C90_step_partial`, `C90_history_partial`, `C90_mild_partial`, `C90_import_partial`, `C90_pop_violated`, `C90_left_violated`, `C91_both_partial`, `C91_same_partial`, `C91_session_partial`, `C91_reload_partial`, `C91_custom_partial`, `C91_gaps_partial`, `C92_first`, `C92_last`, `C92_import_partial`, `C93_new_partial`, `C93_again_violated`, `C93_upwards_partial`, `C93_violated`, `C94_firstDecided_partial`, `C94_leftwards_partial`, `C94_right_partial`, `C94_left_partial`, `C94_decided_partial`, `C94_attempts_partial`, `C94_import_partial`, `C95_import`, `C95_append`, `C96_both_partial`, `C96_bothImport_partial`, `C96_idle_partial`, `C96_session_partial`, `C96_history_partial`, `C96_import_partial`, `C96_kept_partial`, `C96_anytime_partial`, `C96_wherever_partial`, `C96_pop_violated`, `C97_built_partial`, `C97_order_partial`, `C97_order_violated`, `C97_within_violated`, `C98_import_partial`, `C98_append_partial`, `C98_violated`, `C98_statement_violated`, `C98_append_violated`, `C99_step_partial`, `C99_history_partial`, `C99_mild_partial`, `C99_import_partial`, `C99_right_violated`, `C100_shows`, `C100_new`, `C100_again`, `C100_workable`, `C100_import_partial`, `C100_both_partial`, `C100_errors`, `C100_violated`, `C100_statement_violated`, `C101_editable`, `C101_workable`, `C101_import_partial`, `C101_gaps_partial`, `C101_point`, `C101_violated`, `C101_beyond_violated`, `C101_statement_violated`, `C102_list`, `C102_history_partial`, `C102_import_partial`, `C102_attempts_partial`, `C102_tries_partial`, `C103_workable`, `C103_import_partial`, `C103_editable`, `C103_gaps_partial`, `C103_import_returned_partial`, `C103_ids`, `C103_gap_violated`, `C103_ids_violated`, `C103_statement_violated`

**`Quot.sound`, `propext`** (56): `C01_reject`, `C02_contains`, `C03_add_reject`, `C03_add_reject_mixed`, `C04_append_empty`, `C05_append_old`, `C05_append_listed`, `C05_append_twice`, `C06_remove_none`, `C06_pop_none`, `C08_zero_duration`, `C09_set_fol_partial`, `C09_set_prev_partial`, `C09_self`, `C09_class`, `C09_fuel`, `C10_precedence`, `C13_append_reject_partial`, `C13_append_subset_reject`, `C13_assign_reject`, `C13_set_super_reject`, `C13_set_super_none`, `C22_search`, `C29_limit`, `C34_hierarchy`, `C35_too_few`, `C35_point_class`, `C37_shape`, `C37_kept`, `C38_export`, `C40_textgrid`, `C47_textgrid_partial`, `C48_visits_partial`, `C48_break`, `C48_nested_violated`, `C48_nested_diverges`, `C49_unlisted`, `C52_distinct`, `C52_duplicate`, `C54_empty_partial`, `C63_starts`, `C63_ends`, `C65_rejects`, `C84_level`, `C84_override`, `C92_lowest`, `C92_tier`, `C94_first_partial`, `C98_fits`, `C101_tidy`, `C102_meant`, `C102_last`, `C102_list_refused`, `C103_returned`, `C104_export`, `C104_intervals`

**`propext`** (18): `C17_right_edge`, `C17_left_edge`, `C17_unlinked`, `C37_violated`, `C46_group_partial`, `C46_empty_violated`, `C47_tier`, `C47_empty_violated`, `C48_nested_other`, `C51_cast`, `C51_cast_reject`, `C63_length`, `C64_length`, `C84_certain`, `C92_walk`, `C92_point`, `C93_refused`, `C94_index`
