{"id": "C01", "title": "SequenceList construction sorts and loses nothing", "statement": "Building a SequenceList from entries of one class yields exactly those entries (same multiset of objects) in non-decreasing order of start time; entries of more than one class are rejected with ValueError and an empty argument list yields an empty list.", "quantifier": "every finite list of entries, every assignment of start times and classes", "why_tests_cant": "A test fixes one list; the claim is about every length, order and tie pattern.", "anchors": ["src/aligned_textgrid/sequence_list.py: SequenceList.__init__, _sort, starts"]}
{"id": "C02", "title": "SequenceList membership is identity or value equality", "statement": "`x in lst` holds exactly when lst holds x itself or some entry with the same (start, end, label).", "quantifier": "every list and every entry", "why_tests_cant": "Quantifies over all pairs of list and entry.", "anchors": ["src/aligned_textgrid/sequence_list.py: SequenceList.__contains__", "src/aligned_textgrid/mixins/mixins.py: return_praatio"]}
{"id": "C03", "title": "SequenceList + keeps everything, adds only the new, and stays sorted", "statement": "`a + b` (compatible classes) returns a list whose entries are all entries of a, plus every entry of b that is not already `in` a, sorted by start; a's own content is not changed; unrelated classes raise ValueError.", "quantifier": "all lists a, all sequences b", "why_tests_cant": "All sizes and overlaps between a and b.", "anchors": ["src/aligned_textgrid/sequence_list.py: SequenceList.__add__"]}
{"id": "C04", "title": "SequenceList.append keeps the list sorted", "statement": "Appending an entry to a sorted SequenceList leaves it sorted and containing the old entries plus the new one.", "quantifier": "every sorted list and every entry", "why_tests_cant": "Fails only for lists that contain a start time of exactly 0 and an out-of-order append; a test that does not combine the two passes.", "anchors": ["src/aligned_textgrid/sequence_list.py: SequenceList.append"]}
{"id": "C05", "title": "SequenceList.append is idempotent and never creates a duplicate", "statement": "Appending an entry that is already `in` the list changes nothing, and appending twice is the same as appending once.", "quantifier": "every list and entry", "why_tests_cant": "All lists.", "anchors": ["src/aligned_textgrid/sequence_list.py: SequenceList.append"]}
{"id": "C06", "title": "SequenceList.remove / pop remove exactly one entry", "statement": "remove(x)/pop(x) deletes the first entry with x's (start, end, label), keeps every other entry in order, raises ValueError (remove) or does nothing (pop) when there is none.", "quantifier": "every list and entry", "why_tests_cant": "All lists, including those with value-equal duplicates.", "anchors": ["src/aligned_textgrid/sequence_list.py: SequenceList.remove, SequenceList.pop"]}
{"id": "C07", "title": "SequenceList.concat shifts and appends, and the list stays usable", "statement": "concat(b) shifts every entry of b by the maximum end of a, and a then lists its old entries followed by b's, and can be used like any other SequenceList afterwards.", "quantifier": "all lists a and b, including empty b, and every later operation", "why_tests_cant": "The list object is left in a state where later operations fail; only a history with a later operation shows it.", "anchors": ["src/aligned_textgrid/sequence_list.py: SequenceList.concat"]}
{"id": "C08", "title": "Overlap detection is exact", "statement": "For entries of positive duration the overlap check returns True exactly when no two distinct entries overlap in time.", "quantifier": "every list of intervals with start < end", "why_tests_cant": "Counts over n^2 pairs; must hold for every n.", "anchors": ["src/aligned_textgrid/sequence_list.py: SequenceList._check_no_overlaps"]}
{"id": "C09", "title": "Setting fol or prev is mutual and terminates", "statement": "x.set_fol(y) on distinct same-class entries makes x.fol is y and y.prev is x, and symmetrically for set_prev; the mutual recursion always stops; self-precedence and class mismatch raise and change nothing.", "quantifier": "every heap of entries, every pair x, y and every previous fol/prev state", "why_tests_cant": "Mutual recursion over arbitrary prior pointer states.", "anchors": ["src/aligned_textgrid/mixins/mixins.py: PrecedenceMixins.set_fol, set_prev, set_initial, set_final"]}
{"id": "C10", "title": "Subset lists are doubly linked", "statement": "After a subset list is set, for its i-th element e_i: e_i.fol is e_{i+1} and e_{i+1}.prev is e_i, the first element's prev and the last element's fol are '#' boundaries, whatever the pointers were before; nothing outside the list changes.", "quantifier": "every list length, every prior pointer state", "why_tests_cant": "Unbounded list and arbitrary stale pointers.", "anchors": ["src/aligned_textgrid/sequences/sequences.py: _set_subset_precedence, set_subset_list", "src/aligned_textgrid/mixins/mixins.py"]}
{"id": "C11", "title": "Tiers are doubly linked and know their entries", "statement": "After a SequenceTier is built from intervals, its entries are sorted by start, linked by fol/prev in that order with '#' at both ends, and every entry's intier is the tier; for top-level tiers every entry's within is the tier.", "quantifier": "every list of intervals", "why_tests_cant": "Unbounded list, arbitrary prior pointers.", "anchors": ["src/aligned_textgrid/sequences/tiers.py: SequenceTier.__init__, __set_precedence, __set_intier"]}
{"id": "C12", "title": "super_instance and subset_list agree", "statement": "After any history of superset/subset operations, x is in w.subset_list exactly when x.super_instance is w; in particular an interval is in at most one subset list.", "quantifier": "every history of create / append / append_subset_list / subset_list= / set_super_instance / remove_superset / remove_from_subset_list", "why_tests_cant": "A property of all operation histories.", "anchors": ["src/aligned_textgrid/sequences/sequences.py: InstanceMixins.*"]}
{"id": "C13", "title": "Subset membership respects the class hierarchy", "statement": "Every operation that puts x in w.subset_list either requires x to be an instance of w's subset class or raises and leaves both unchanged.", "quantifier": "all objects of all classes, all histories", "why_tests_cant": "All class tables.", "anchors": ["src/aligned_textgrid/sequences/sequences.py: set_super_instance, set_subset_list, append_subset_list, append"]}
{"id": "C14", "title": "Re-parenting moves an interval", "statement": "Giving an interval a new superset (append, append_subset_list, subset_list=) removes it from the old superset's subset_list, and the remaining old siblings are re-linked around the gap.", "quantifier": "all intervals, all old and new supersets, all positions", "why_tests_cant": "All list sizes and positions.", "anchors": ["src/aligned_textgrid/sequences/sequences.py: set_subset_list, append_subset_list, remove_superset, remove_from_subset_list"]}
{"id": "C15", "title": "validate() is True exactly for snug subset lists", "statement": "validate() returns True iff the subset list is empty, or its first start and last end match the interval's within numpy tolerance and every gap between neighbours is within tolerance.", "quantifier": "every interval and subset list", "why_tests_cant": "All real-valued times and sizes.", "anchors": ["src/aligned_textgrid/sequences/sequences.py: InstanceMixins.validate"]}
{"id": "C16", "title": "Interval cleanup closes all gaps", "statement": "After interval.cleanup() the subset list covers the interval snugly: it starts at the interval's start, ends at its end and has no gap; all former subset intervals are still present and only blank-labelled intervals were added.", "quantifier": "every interval with a sorted non-overlapping subset list inside it", "why_tests_cant": "All sizes and gap patterns.", "anchors": ["src/aligned_textgrid/sequences/sequences.py: SequenceInterval.cleanup, append"]}
{"id": "C17", "title": "Fusing merges two neighbours into one", "statement": "x.fuse_rightwards() makes x span from its start to the end of its fol, joins labels with label_fun, gives x both subset lists in order, removes exactly the fused neighbour from the tier/superset; the mirror holds for fuse_leftwards; at a boundary it raises and changes nothing.", "quantifier": "all intervals, tiers and hierarchies, all label functions", "why_tests_cant": "All positions and sizes.", "anchors": ["src/aligned_textgrid/sequences/sequences.py: fuse_rightwards, fuse_leftwards"]}
{"id": "C18", "title": "Fusing keeps the tier linked", "statement": "After x.fuse_rightwards() x.fol is the old fol's fol and that interval's prev is x (and dually for leftwards), so that chains of fusions can continue in either direction.", "quantifier": "all tiers (any entry class), all positions, all fusion histories", "why_tests_cant": "The broken back link shows only when the next operation goes leftwards and the class is not the base class.", "anchors": ["src/aligned_textgrid/sequences/sequences.py: fuse_rightwards, fuse_leftwards", "src/aligned_textgrid/sequences/tiers.py: SequenceTier.pop"]}
{"id": "C19", "title": "get_interval_at_time finds the unique interval", "statement": "On a tier of non-overlapping intervals get_interval_at_time(t) returns i iff start_i <= t < end_i, and None iff no interval contains t.", "quantifier": "all tiers, all times", "why_tests_cant": "All tiers and real times, including boundaries.", "anchors": ["src/aligned_textgrid/sequences/tiers.py: SequenceTier.get_interval_at_time"]}
{"id": "C20", "title": "Tier extent", "statement": "xmin/xmax of a tier are the least start and the greatest end of its entries (None when empty); every entry lies within [xmin, xmax].", "quantifier": "all tiers", "why_tests_cant": "All tiers.", "anchors": ["src/aligned_textgrid/sequences/tiers.py: SequenceTier.xmin, xmax", "src/aligned_textgrid/points/tiers.py: SequencePointTier.xmin, xmax"]}
{"id": "C21", "title": "Tier cleanup fills every internal gap and nothing else", "statement": "SequenceTier.cleanup() on a sorted non-overlapping tier inserts exactly one blank interval for each internal gap, so that consecutive intervals touch, keeps all old intervals, and never creates overlaps; cleaning a clean tier changes nothing.", "quantifier": "all sorted non-overlapping tiers", "why_tests_cant": "All gap patterns.", "anchors": ["src/aligned_textgrid/sequences/tiers.py: SequenceTier.cleanup"]}
{"id": "C22", "title": "Tiers in a group are ordered by the class hierarchy", "statement": "TierGroup orders its tiers from the highest to the lowest class, whatever order they were given in; consecutive tiers are in the subset-class relation.", "quantifier": "all lists of tiers over all class hierarchies", "why_tests_cant": "All permutations and depths; plus termination of the search.", "anchors": ["src/aligned_textgrid/sequences/tiers.py: TierGroup._arrange_tiers"]}
{"id": "C23", "title": "Each lower interval goes to the upper interval it overlaps most", "statement": "When two adjacent tiers with sorted boundaries are related, each lower interval is assigned to exactly one upper interval, one with which its overlap is maximal (the earliest such); the assignment is monotone, so the slices given to the upper intervals partition the lower tier in order.", "quantifier": "all pairs of tiers whose starts and ends are non-decreasing", "why_tests_cant": "All boundary patterns; relies on a supermodularity argument no test can settle.", "anchors": ["src/aligned_textgrid/sequences/tiers.py: TierGroup.__init__"]}
{"id": "C24", "title": "Aligned tiers are related by containment", "statement": "If the lower boundaries refine the upper boundaries, then after TierGroup([...]) each upper interval's subset_list is exactly the lower intervals inside it, in order, each lower interval's super_instance and within is that upper interval, fol/prev never cross an upper boundary, and no time, label or tier content changed.", "quantifier": "all aligned tier pairs", "why_tests_cant": "All sizes.", "anchors": ["src/aligned_textgrid/sequences/tiers.py: TierGroup.__init__"]}
{"id": "C25", "title": "Precedence never crosses the superset", "statement": "In a TierGroup, the last interval of each subset list has a '#' boundary as fol and the first has one as prev, after construction and after appending an interval to a superset.", "quantifier": "all groups and appends", "why_tests_cant": "Only violated when some upper interval is empty or an append percolates.", "anchors": ["src/aligned_textgrid/sequences/tiers.py: TierGroup.__init__", "src/aligned_textgrid/mixins/tiermixins.py: TierMixins.append"]}
{"id": "C26", "title": "Every interval of a group is on a tier", "statement": "In a TierGroup every interval of an upper interval's subset_list is an entry of the tier below.", "quantifier": "all groups", "why_tests_cant": "Only violated when a gap inside an upper interval is filled during relation.", "anchors": ["src/aligned_textgrid/sequences/tiers.py: TierGroup.__init__"]}
{"id": "C27", "title": "Shifting is uniform and invertible", "statement": "shift(d) adds d to every start and end of every tier exactly once, changes nothing else, preserves durations, order and overlap; shift(d) then shift(-d) is the identity and shift(a) then shift(b) is shift(a+b).", "quantifier": "all groups/textgrids, all increments", "why_tests_cant": "All sizes and increments.", "anchors": ["src/aligned_textgrid/sequences/tiers.py: SequenceTier._shift, TierGroup.shift", "src/aligned_textgrid/aligned_textgrid.py: AlignedTextGrid.shift"]}
{"id": "C28", "title": "Interval shift reaches every descendant once", "statement": "x._shift(d) shifts x and all its descendants in the subset hierarchy by exactly d, provided the hierarchy is a tree.", "quantifier": "all finite hierarchies", "why_tests_cant": "All depths.", "anchors": ["src/aligned_textgrid/sequences/sequences.py: SequenceInterval._shift", "src/aligned_textgrid/sequence_list.py: SequenceList._shift"]}
{"id": "C29", "title": "Appending to a grouped tier terminates", "statement": "tier.append(interval) terminates for every interval, also when the tier is in a group and the interval has a subset list or a superset.", "quantifier": "all grouped tiers and intervals", "why_tests_cant": "Divergence needs a value-equal copy at two levels.", "anchors": ["src/aligned_textgrid/mixins/tiermixins.py: TierMixins.append"]}
{"id": "C30", "title": "Class links are mutual", "statement": "After A.set_subset_class(B) or B.set_superset_class(A), A.subset_class is B and B.superset_class is A, nothing else about other classes changes, and the mutual recursion stops; a class is never its own superset or subset.", "quantifier": "all class tables, all pairs of classes", "why_tests_cant": "All prior link states.", "anchors": ["src/aligned_textgrid/sequences/sequences.py: HierarchyMixins.set_superset_class, set_subset_class"]}
{"id": "C31", "title": "custom_classes builds the requested chain", "statement": "custom_classes(names) returns one class per name; the i-th interval class's subset_class is the (i+1)-th, the first has a fresh Top and the last a fresh Bottom.", "quantifier": "all name lists and point index lists", "why_tests_cant": "All lengths.", "anchors": ["src/aligned_textgrid/custom_classes.py: custom_classes, _make_top, _make_bottom"]}
{"id": "C32", "title": "custom_classes honours return_order", "statement": "With return_order given as names, the j-th returned class is the one named return_order[j]; with indices it is class_list[return_order[j]].", "quantifier": "all permutations of the names", "why_tests_cant": "Involutions hide the error; only longer cycles show it.", "anchors": ["src/aligned_textgrid/custom_classes.py: custom_classes"]}
{"id": "C33", "title": "Cloning isolates the textgrid's classes", "statement": "clone_class(C) for a top class returns a class with the same name whose hierarchy down to the bottom has the same names in the same order, is disjoint from the original hierarchy, and leaves every attribute of every original class unchanged.", "quantifier": "all class chains of any depth", "why_tests_cant": "Recursion over arbitrary depth with aliasing between original and clone.", "anchors": ["src/aligned_textgrid/custom_classes.py: clone_class"]}
{"id": "C34", "title": "get_class_hierarchy lists the whole chain", "statement": "get_class_hierarchy(C) called with an empty list returns the chain from the top class to the bottom class in order, each once, whichever member C it starts from.", "quantifier": "all class chains and all members", "why_tests_cant": "All depths and start points.", "anchors": ["src/aligned_textgrid/custom_classes.py: get_class_hierarchy"]}
{"id": "C35", "title": "Flat entry classes are repeated over the tiers", "statement": "With a flat list of k entry classes (one hierarchy) and n tiers, the textgrid is split into n // k groups, the j-th tier of group i being tier i*k+j with class j; no tier is used twice, and when k divides n none is lost.", "quantifier": "all n, k", "why_tests_cant": "All sizes.", "anchors": ["src/aligned_textgrid/aligned_textgrid.py: _extend_classes, _nestify_tiers"]}
{"id": "C36", "title": "interleave_class then pop_class restores the hierarchy", "statement": "Interleaving a new class above or below an existing class puts it between the two neighbours, and popping it re-links the neighbours as before.", "quantifier": "all class chains and positions", "why_tests_cant": "All positions and depths.", "anchors": ["src/aligned_textgrid/aligned_textgrid.py: interleave_class, pop_class"]}
{"id": "C37", "title": "Exported tier names are distinct", "statement": "return_textgrid() gives every tier a distinct name, so that no tier is rejected or overwritten.", "quantifier": "all lists of tier names", "why_tests_cant": "Collision needs a tier whose own name equals a generated one.", "anchors": ["src/aligned_textgrid/aligned_textgrid.py: return_textgrid"]}
{"id": "C38", "title": "Round trip of times and labels", "statement": "return_tier() lists exactly the tier's (start, end, label) triples in order, and rebuilding a SequenceTier from them gives the same triples in the same order.", "quantifier": "all tiers", "why_tests_cant": "All tiers.", "anchors": ["src/aligned_textgrid/sequences/tiers.py: return_tier, SequenceTier.__init__", "src/aligned_textgrid/mixins/mixins.py: return_interval"]}
{"id": "C39", "title": "Textgrid cleanup aligns the groups", "statement": "After AlignedTextGrid.cleanup() all interval tier groups share xmin and xmax, and no zero-length or overlapping interval was added.", "quantifier": "all textgrids", "why_tests_cant": "All group extents.", "anchors": ["src/aligned_textgrid/aligned_textgrid.py: AlignedTextGrid.cleanup"]}
{"id": "C40", "title": "ids identify objects", "statement": "within_path is the list of child indices from the outermost container to the object; distinct objects under one textgrid have distinct paths, and the path of a container is a proper prefix of the path of what it contains.", "quantifier": "all containment trees", "why_tests_cant": "All depths and sizes.", "anchors": ["src/aligned_textgrid/mixins/within.py: WithinMixins"]}
{"id": "C41", "title": "id strings identify objects", "statement": "The '-'-joined id string determines the path, so equal ids mean the same object.", "quantifier": "all paths", "why_tests_cant": "Injectivity over all index lists.", "anchors": ["src/aligned_textgrid/mixins/within.py: id"]}
{"id": "C42", "title": "Nearest point is nearest", "statement": "get_nearest_point_index(t) returns the first index whose distance to t is minimal.", "quantifier": "all non-empty point tiers, all t", "why_tests_cant": "All sizes.", "anchors": ["src/aligned_textgrid/points/tiers.py: get_nearest_point_index"]}
{"id": "C43", "title": "Point distances have the documented sign and value", "statement": "fol_distance is fol.time - time (>= 0 on a sorted tier) and prev_distance is prev.time - time (<= 0), defined for every non-edge point.", "quantifier": "all point tiers and positions", "why_tests_cant": "Fails only at a neighbour whose time is exactly 0.", "anchors": ["src/aligned_textgrid/points/points.py: fol_distance, prev_distance"]}
{"id": "C44", "title": "Group and textgrid extents", "statement": "xmin/xmax of a tier group, points group or textgrid are the min of the members' xmin and the max of the members' xmax.", "quantifier": "all groups", "why_tests_cant": "All sizes.", "anchors": ["src/aligned_textgrid/points/tiers.py: PointsGroup.xmin, xmax", "src/aligned_textgrid/sequences/tiers.py: TierGroup.xmin, xmax", "src/aligned_textgrid/aligned_textgrid.py: xmin, xmax"]}
{"id": "C45", "title": "Point tier construction", "statement": "Building a SequencePointTier from points with distinct times yields exactly those points in time order, linked by fol/prev.", "quantifier": "all lists of points", "why_tests_cant": "All orders, including a point at time 0.", "anchors": ["src/aligned_textgrid/points/tiers.py: SequencePointTier.__init__"]}
{"id": "C46", "title": "Data frame with subsets has one row per leaf", "statement": "to_df(obj, with_subset=True) has exactly one row per lowest-level interval (or childless interval), in order, each carrying the values of all its ancestors.", "quantifier": "all hierarchies", "why_tests_cant": "All tree shapes.", "anchors": ["src/aligned_textgrid/outputs/to_dataframe.py: sequence_to_df, tier_to_df, tiergroup_to_df, textgrid_to_df"]}
{"id": "C47", "title": "Data frame without subsets has one row per entry", "statement": "to_df(obj, with_subset=False) has exactly one row per entry of every tier, in order.", "quantifier": "all textgrids", "why_tests_cant": "All sizes.", "anchors": ["src/aligned_textgrid/outputs/to_dataframe.py"]}
{"id": "C48", "title": "Iterating an interval visits its subset list once, in order", "statement": "`for p in word` visits each subset interval once in order, also when loops over the same word are nested.", "quantifier": "all intervals, all nestings of loops", "why_tests_cant": "Needs nested loops; a single loop works.", "anchors": ["src/aligned_textgrid/sequences/sequences.py: __iter__, __next__"]}
{"id": "C49", "title": "tier_index and get_tierwise agree", "statement": "For an entry at position i of its tier, tier_index is i, and get_tierwise(k) is the entry at i+k whenever 0 <= i+k < len.", "quantifier": "all tiers, positions and offsets", "why_tests_cant": "All positions; negative offsets near the start wrap around.", "anchors": ["src/aligned_textgrid/mixins/mixins.py: InTierMixins.tier_index, get_tierwise"]}
{"id": "C50", "title": "Levels and turning points are related mutually", "statement": "After relating a Levels tier and a TurningPoints tier, whenever a level's turning_point is set, its time agrees within tolerance and it is the nearest point; the mutual recursion terminates.", "quantifier": "all pairs of tiers", "why_tests_cant": "All tiers; mutual recursion.", "anchors": ["src/aligned_textgrid/polar/polar_classes.py: Levels.set_turning_point, TurningPoints.set_level"]}
{"id": "C51", "title": "Casting keeps identity and content", "statement": "_cast changes only the class of an entry: times, label, links, subset list and superset are untouched, and points are never cast to intervals or vice versa.", "quantifier": "all entries and classes", "why_tests_cant": "All heaps.", "anchors": ["src/aligned_textgrid/mixins/mixins.py: SequenceBaseClass._cast"]}
{"id": "C52", "title": "Named accessors reach the right tier", "statement": "When entry class names in a group are distinct, group.<Name> is the tier with that entry class; with duplicates no accessor is set.", "quantifier": "all groups", "why_tests_cant": "All name lists.", "anchors": ["src/aligned_textgrid/mixins/tiermixins.py: _set_tier_names", "src/aligned_textgrid/aligned_textgrid.py: _set_group_names"]}
{"id": "C53", "title": "An appended point is linked to its neighbours", "statement": "After SequencePointTier.append(p) the new point's prev and fol are its neighbours in the tier and theirs are the new point.", "quantifier": "all point tiers and new points", "why_tests_cant": "All positions and earlier contents.", "anchors": ["src/aligned_textgrid/points/tiers.py: SequencePointTier.append"]}
{"id": "C54", "title": "Point groups can be concatenated", "statement": "PointsGroup.concat(g) for a group with the same tier classes leaves in each tier the points of both, the new ones shifted by the end of the first group.", "quantifier": "all point groups", "why_tests_cant": "All sizes; the existing tests never call it.", "anchors": ["src/aligned_textgrid/points/tiers.py: PointsGroup.concat"]}
{"id": "C55", "title": "Cleanup leaves a fully linked tier", "statement": "After SequenceTier.cleanup() every entry of the tier, filler intervals included, is linked to its neighbours and knows its tier.", "quantifier": "all tiers with gaps", "why_tests_cant": "All gap patterns.", "anchors": ["src/aligned_textgrid/sequences/tiers.py: SequenceTier.cleanup"]}
{"id": "C56", "title": "get_class_hierarchy without a list starts afresh", "statement": "get_class_hierarchy(C) called without a list returns the hierarchy of C, whatever was asked before.", "quantifier": "all class hierarchies and all sequences of calls", "why_tests_cant": "Needs a second call in the same process for an unrelated hierarchy.", "anchors": ["src/aligned_textgrid/custom_classes.py: get_class_hierarchy"]}
{"id": "C57", "title": "Class links stay mutual", "statement": "After any sequence of class definitions and link changes, if an interval class B has A as its superset_class then A.subset_class is B.", "quantifier": "all histories of class operations", "why_tests_cant": "Needs re-linking of already linked classes.", "anchors": ["src/aligned_textgrid/sequences/sequences.py: HierarchyMixins.set_superset_class, set_subset_class"]}
{"id": "C58", "title": "get_interval_at_point returns the interval containing the point", "statement": "On a tier whose intervals do not overlap, point.get_interval_at_point(tier) is the entry whose [start, end) contains the point's time; a time in no interval raises TypeError and an empty tier gives None.", "quantifier": "all points and all tiers without overlaps", "why_tests_cant": "All times and tier shapes, boundaries included.", "anchors": ["src/aligned_textgrid/points/points.py: SequencePoint.get_interval_at_point"]}
{"id": "C59", "title": "Concatenated tiers are one linked tier", "statement": "After tier.concat(new) the tier lists its own entries followed by those of new, the latter with everything below them shifted by the end of the tier, and all entries are linked in order and know the tier.", "quantifier": "all pairs of interval tiers of related classes, the empty tier included", "why_tests_cant": "All sizes and depths of the hierarchy below.", "anchors": ["src/aligned_textgrid/mixins/tiermixins.py: TierMixins.concat", "src/aligned_textgrid/sequence_list.py: SequenceList.concat"]}
{"id": "C60", "title": "Relating tiers that do not match snaps their boundaries inward", "statement": "Relating an upper tier with a gapless lower tier whose boundaries do not match gives each lower interval to an upper one it shares most with; each upper interval and its first (last) lower interval then start (end) together at the later (earlier) of their two former times; no other time, no label, class or tier content changes; a gap as wide as the mismatch remains in both tiers, and each upper interval is exactly tiled by its lower ones with positive durations.", "quantifier": "all pairs of tiers of adjacent classes with any numbers of intervals, the upper ones in order, the lower ones gapless, each upper one owning a lower one", "why_tests_cant": "All numbers of intervals and all rational boundaries.", "anchors": ["src/aligned_textgrid/sequences/tiers.py: TierGroup.relate_tiers", "src/aligned_textgrid/sequences/sequences.py: SequenceInterval.cleanup"]}
{"id": "C61", "title": "No operation moves a boundary outward or changes a label unless it says so", "statement": "A client program that assigns no times or labels and does not shift, concatenate or fuse removes no entry, changes no label and moves no boundary outward; if in addition it relates no tiers it moves nothing at all; labels change only by fusing or assigning; all this also when operations raise.", "quantifier": "all sequences of public operations with all arguments, from every heap", "why_tests_cant": "Unbounded programs over arbitrary heaps.", "anchors": ["src/aligned_textgrid/sequences/tiers.py: TierGroup.relate_tiers", "src/aligned_textgrid/sequences/sequences.py: InstanceMixins, SequenceInterval", "src/aligned_textgrid/aligned_textgrid.py: AlignedTextGrid"]}
{"id": "C62", "title": "No entry is its own neighbour, and an entry labelled # has none", "statement": "In every state a client program can reach, no entry is its own fol or prev, and an entry labelled \"#\" has neither fol nor prev.", "quantifier": "all sequences of public operations with all arguments", "why_tests_cant": "Unbounded programs.", "anchors": ["src/aligned_textgrid/mixins/mixins.py: PrecedenceMixins.set_fol, set_prev", "src/aligned_textgrid/sequences/sequences.py: fuse_rightwards, fuse_leftwards"]}
{"id": "C63", "title": "Assigned starts and ends are taken over exactly", "statement": "Assigning tier.starts (tier.ends) with as many values as entries makes these the starts (ends) of the entries in tier order, changes nothing else, and leaves the tier in time order; another number of values raises and changes nothing.", "quantifier": "all tiers and all lists of times", "why_tests_cant": "All sizes and values.", "anchors": ["src/aligned_textgrid/sequences/tiers.py: SequenceTier.starts, ends"]}
{"id": "C64", "title": "Looking up by time and indexing with the result gives the intervals at that time", "statement": "For tiers without overlaps, indexing a tier group (textgrid) with what get_intervals_at_time(t) returned gives exactly the intervals containing t, one per tier (per group and tier); in related tiers each is the superset of the next; a time at which some tier has no interval raises.", "quantifier": "all groups and textgrids of interval tiers without overlaps, all times", "why_tests_cant": "All sizes, all real times.", "anchors": ["src/aligned_textgrid/sequences/tiers.py: TierGroup.get_intervals_at_time, __getitem__", "src/aligned_textgrid/aligned_textgrid.py: AlignedTextGrid.get_intervals_at_time, __getitem__"]}
{"id": "C65", "title": "The sum of two tiers lists the entries of both once, in order, and leaves the operands alone", "statement": "tier + new is a new tier of the same class which lists the entries of tier and those of new that tier has no equal of, sorted, doubly linked and knowing the new tier; no time, label, class or hierarchy link changes and the operands are as before; tiers of different kinds or unrelated classes raise and change nothing.", "quantifier": "all pairs of interval tiers, also sharing entries", "why_tests_cant": "All sizes and values of entries.", "anchors": ["src/aligned_textgrid/mixins/tiermixins.py: TierMixins.__add__", "src/aligned_textgrid/sequence_list.py: SequenceList.__add__"]}
{"id": "C66", "title": "The sum of two groups is a group related by containment", "statement": "group + new is a new group of new tiers, each listing the entries of both operands' tiers, whose tiers are related by containment; no interval changes its superset, time, label or class; groups with different class names raise and change nothing.", "quantifier": "all pairs of groups with aligned tiers of any number and size", "why_tests_cant": "All sizes and depths.", "anchors": ["src/aligned_textgrid/mixins/tiermixins.py: TierGroupMixins.__add__, _class_check"]}
{"id": "C67", "title": "Appending a tier to a group gives the group of all tiers", "statement": "group.append(tier) puts the tier at its place in the hierarchy and relates all tiers by containment, as if the group had been built from all of them; no time, label or entry changes; a tier of the other kind, of a class already there, or of a class that does not fit raises and changes nothing.", "quantifier": "all groups and tiers", "why_tests_cant": "All sizes, depths and positions in the hierarchy.", "anchors": ["src/aligned_textgrid/mixins/tiermixins.py: TierGroupMixins.append"]}
{"id": "C68", "title": "A flat list of classes of several hierarchies gives each tier its own class and group", "statement": "With a flat list of entry classes from two or more hierarchies, in any order, and at least as many tiers, the tiers are split into one group per top class in the list, each with the classes of that hierarchy from top to bottom; every tier gets the class listed at its place, and no tier is used twice or lost.", "quantifier": "all class lists, all orders, all numbers of tiers", "why_tests_cant": "All lists and orders.", "anchors": ["src/aligned_textgrid/aligned_textgrid.py: _extend_classes, _nestify_tiers"]}
{"id": "C69", "title": "Interleaving a class adds one copied tier to each group that has the class", "statement": "interleave_class(name, above or below a class) gives every group with that class one new tier between its two neighbours: an interval for interval copy of the tier taken as the source (times, and labels if wanted) in the new class, related by containment to the tiers above and below; no other tier loses or changes an interval, and the other groups stay as they are, in their places.", "quantifier": "all textgrids, groups, tiers and classes of a hierarchy, above and below, timing from either side, with and without labels", "why_tests_cant": "All numbers of groups, tiers and intervals.", "anchors": ["src/aligned_textgrid/aligned_textgrid.py: interleave_class"]}
{"id": "C70", "title": "Popping a class takes one tier out of each group and relates the remaining tiers across the gap", "statement": "pop_class(name) takes the tier of the class out of every group that has it and other tiers: the other tiers stay in order with all their intervals, times and labels, and are related by containment to their new neighbours; the intervals of the lowest remaining tier contain nothing; groups with only that tier are dropped, other groups stay as they are, in order; the classes above and below are linked to each other.", "quantifier": "all textgrids, groups, tiers and classes of a hierarchy; the class at the top, in the middle and at the bottom", "why_tests_cant": "All numbers of groups, tiers and intervals, and every mixture of groups with and without the class.", "anchors": ["src/aligned_textgrid/aligned_textgrid.py: pop_class"]}
{"id": "C71", "title": "Interleaving a class and popping it again gives the textgrid back", "statement": "interleave_class(name, ...) followed by pop_class(name) leaves a textgrid with the same groups in order, each with its tiers of before and their intervals, times and labels; where the tiers of a group were related by containment, every interval has the subset list, superset and neighbours it had; the classes above and below the new one are linked to each other again.", "quantifier": "all textgrids, groups, tiers and classes of a hierarchy, above and below, timing from either side, with and without labels; any name not yet in use", "why_tests_cant": "All numbers of groups, tiers and intervals, all places for the new class, and every mixture of groups with and without the class.", "anchors": ["src/aligned_textgrid/aligned_textgrid.py: interleave_class, pop_class"]}
{"id": "C72", "title": "Cleaning up a group fills exactly the gaps and keeps the tiers related", "statement": "TierGroup.cleanup() on a group of aligned tiers, complete or without the lowest tiers, fills every gap of every tier with one blank interval that lies between its neighbours, leaves times, labels and classes of the existing entries as they are, and leaves all entries, old and new, related by containment from tier to tier. A group whose gaps are all within numpy's tolerance gets no new entries, and a second cleanup() makes no new entries.", "quantifier": "all groups with tiers for the classes of a hierarchy from the highest to any other, any number of tiers, entries and gaps, all positive times", "why_tests_cant": "The recursion through the tiers of a group has a depth that depends on the group and runs on every gap; tests look at groups of two tiers with a few gaps.", "anchors": ["src/aligned_textgrid/sequences/tiers.py: TierGroup.cleanup, SequenceTier.cleanup, TierGroup.re_relate, TierGroup._project_up"]}
{"id": "C73", "title": "Cleaning up a textgrid fills the gaps of all groups and pads them to a common extent", "statement": "AlignedTextGrid.cleanup() on a textgrid of aligned groups, complete or without their lowest tiers, succeeds: each gap of each tier is filled with one blank interval in its place; every tier then gets at most one blank interval in front (from the earliest start of all groups) and one behind (to the latest end), no other interval is added or changed, and all intervals of each group, old and new, are related by containment.", "quantifier": "all textgrids, any number of groups, tiers, intervals and gaps, all positive times", "why_tests_cant": "The groups are cleaned up one after the other on a shared object graph; that no group disturbs another has to hold for every number of groups and every mixture of gaps and extents.", "anchors": ["src/aligned_textgrid/aligned_textgrid.py: AlignedTextGrid.cleanup", "src/aligned_textgrid/sequences/tiers.py: TierGroup.cleanup, SequenceTier.cleanup"]}
{"id": "C74", "title": "Importing a Praat textgrid keeps its tiers and relates their intervals", "statement": "AlignedTextGrid(textgrid, entry_classes) for hierarchies of classes, complete or without their lowest classes, and aligned interval tiers succeeds. Each group has exactly the tiers that belong to it, in order, with their names, times and labels, for clones of the given classes that have the same names and are linked as the given ones; the given classes do not change; every interval is related by containment to those above and below; then cleanup() runs on the result. If all tiers cover the same time without gaps, the textgrid read tier by tier is the Praat textgrid.", "quantifier": "all Praat textgrids, any number of groups, tiers and intervals, and all class tables reachable in the package", "why_tests_cant": "The import runs through class cloning, swapping by name, building tiers and groups on one object graph and the cleanup; tests run it on two files, while it has to keep each tier for every number of speakers, classes and intervals.", "anchors": ["src/aligned_textgrid/aligned_textgrid.py: AlignedTextGrid.__init__, _process_textgrid_arg, _nestify_tiers, _relate_tiers, _reclone_classes, _swap_classes", "src/aligned_textgrid/sequences/tiers.py: SequenceTier.__init__, TierGroup.__init__"]}
{"id": "C75", "title": "Cleanup of a group with an empty top tier gives every interval below a superset", "statement": "If the top tier of an interval group is empty and the tiers below are aligned and related, cleanup() fills the top tier with exactly one new blank interval for each interval of the tier below, with the same times, of the tier's class, and holding exactly that interval; the group is then related by containment from the top on, the lower tiers are cleaned up as other groups, and no old entry changes its times, label or class.", "quantifier": "all interval groups with an empty top tier, any number of levels below and of intervals", "why_tests_cant": "The projection interleaves lookups by midpoint, appending to the tier above and relating the group again, and its result depends on every interval copied before; tests have one short group, while two empty levels already break it.", "anchors": ["src/aligned_textgrid/sequences/tiers.py: TierGroup.cleanup, TierGroup._project_up", "src/aligned_textgrid/mixins/tiermixins.py: TierMixins.append"]}
{"id": "C76", "title": "Levels are related to the range they lie in, and the five bands of a range tile it", "statement": "Importing a PoLaR textgrid whose ranges do not overlap and whose levels all lie in ranges gives each level exactly the range its time lies in and touches nothing else; a level k from 1 to 5 in a range lo-hi has as its band exactly the k-th fifth of the range, and every value from lo on below hi lies in exactly one of the five bands.", "quantifier": "all tiers of levels and of ranges, all range labels made of two numbers, all levels", "why_tests_cant": "Tests read one annotation file whose levels all lie inside ranges; a level outside (at the very end, say) makes the whole import raise, and levels outside 1 to 5 give bands with fewer than two boundaries.", "anchors": ["src/aligned_textgrid/polar/polar_classes.py: Levels.set_range_interval, Levels.level, Levels.band, Ranges.range, Ranges.bands", "src/aligned_textgrid/polar/polar_grid.py: PolarGrid._relate_levels_and_ranges"]}
{"id": "C77", "title": "The name of a group is made of what the names of its tiers have in common", "statement": "The candidate for the name of a group is a contiguous part of the name of every tier, empty for two tiers exactly if their names share no character, and the common start of the two names whenever nothing they share is longer. The resulting name has at least two characters, all of them letters, digits or underscores. A group that has a name keeps it when it is related anew.", "quantifier": "all lists of tier names", "why_tests_cant": "It is about all strings and the recursion of the matching blocks; the names in the tests all start with the speaker, while for other names the first matching block is not the longest, and the name depends on the order of the tiers.", "anchors": ["src/aligned_textgrid/mixins/tiermixins.py: TierGroupMixins.get_longest_name_string, TierGroupMixins.make_name, TierGroupMixins.name", "src/aligned_textgrid/sequences/tiers.py: TierGroup.__init__", "src/aligned_textgrid/points/tiers.py: PointsGroup.__init__"]}
{"id": "C78", "title": "Named accessors of a textgrid lead to the groups with those names", "statement": "If the groups of a textgrid have different names, each of them is found under its name and nothing else changes; if two groups share a name, no accessor is set. In a PolarGrid the group with ranges is named RangesTier, another group with a class of PoLaR Points, another group with words or phones Word_Phone, and all other groups keep their names.", "quantifier": "all lists of groups and names, all earlier accessors, all class tables", "why_tests_cant": "Accessors are attributes that are never deleted: after a renaming or with duplicate names the old ones stay and lead to groups of other names, which no test sets up; neither does one have two speakers in a PolarGrid.", "anchors": ["src/aligned_textgrid/aligned_textgrid.py: AlignedTextGrid._set_group_names", "src/aligned_textgrid/polar/polar_grid.py: PolarGrid._name_groups"]}
{"id": "C79", "title": "Giving an interval the subset list of another moves its entries", "statement": "After w.set_subset_list(v.subset_list) all the entries of v are in the list of w, have w as their superset and have left v. In fact all of them are in the list of w, but exactly those at odd positions also stay in the list of v and keep v as their superset, since the loop runs over the list it removes entries from.", "quantifier": "all heaps in which supersets and subset lists agree, all pairs of different intervals, all lengths of the list", "why_tests_cant": "The tests only pass lists made by hand, or lists of one entry; with a live list which entries stay behind depends on the length, and the wrong superset is only noticed at the next operation on the other interval.", "anchors": ["src/aligned_textgrid/sequences/sequences.py: HierarchyMixins.set_subset_list, HierarchyMixins.remove_from_subset_list, HierarchyMixins.set_super_instance"]}
{"id": "C80", "title": "Names of tops and bottoms are numbered in order of creation", "statement": "However classes are made (custom classes in any order, clones, class statements, changes of the hierarchy, also calls that raise), the subclasses of Top are called Top_wp, Top_1, Top_2, ... in the order of their creation and those of Bottom likewise, so no two have the same name, as long as Top and Bottom themselves are neither subclassed nor cloned by the user.", "quantifier": "all sequences of calls that make or change classes", "why_tests_cant": "The number depends on all classes made before in the process, by any code; tests see one history each.", "anchors": ["src/aligned_textgrid/custom_classes.py: custom_classes, clone_class, get_class_hierarchy", "src/aligned_textgrid/sequences/sequences.py: Top, Bottom"]}
{"id": "C81", "title": "What appending a group to a textgrid, and making a textgrid of groups, does", "statement": "AlignedTextGrid.append(g) puts g last and leaves the other groups, all intervals, times and labels as they are. The tiers of g are cast to classes of the textgrid with the same names: those used for an earlier group if the names are the same, and new ones otherwise. The relations within the group are kept. A textgrid made of a list of groups has these groups in order, all its classes are new, and classes of the same name in different groups are one class. Where two hierarchies share only some names a tier is lost or an error is raised; tiers lose their own names.", "quantifier": "all heaps and all lists of groups whose classes are complete hierarchies and whose tiers are aligned and not empty, with class-name lists that are equal or disjoint", "why_tests_cant": "Whether a class is reused or cloned depends on all groups appended before, so the number of cases grows with every group; tests check two speakers with Word and Phone. The relation between the classes of one group and another is an invariant of the whole history of appends.", "anchors": ["src/aligned_textgrid/aligned_textgrid.py: AlignedTextGrid.append, _reclone_classes, _swap_classes, __init__ (406-457)"]}
{"id": "C82", "title": "Appending an interval brings its parts along; joining two groups joins each pair of tiers", "statement": "Appending to the first tier of a related group an interval later than the whole group, tiled by its subset list level by level, adds at the end of the tier at each position exactly the entries that many steps below the interval; superset and subset lists do not change. g.concat(g') adds to each tier of g the entries of the tier of g' at the same position, moved by the end of g; the end of g becomes the sum of the two ends; the tiers are related by containment as before and nothing else changes. Joining a group with itself changes nothing; groups of differently named classes are refused with nothing changed.", "quantifier": "every group of aligned interval tiers of any depth, of any number of intervals with any gaps between top intervals, and every second group of the same classes", "why_tests_cant": "The number of tiers, of entries and of levels below the appended interval is unbounded, and appending re-relates the whole group for every entry; a test sees a few words and phones.", "anchors": ["src/aligned_textgrid/mixins/tiermixins.py: append, concat"]}
{"id": "C83", "title": "Textgrids with point tiers are imported whole, and cleanup leaves points alone", "statement": "Let the tiers of a Praat textgrid be split into groups, each for a hierarchy of interval classes, complete or without its lowest classes, or for classes of points, with at least one hierarchy; let the interval tiers of a group be aligned, start and end at common times and have no gaps, and let the times of each point tier increase. Then AlignedTextGrid(textgrid, classes) has exactly the given tiers in the given groups and order, for clones of the given classes; the groups for classes of points are points groups with linked points, the others are related by containment. cleanup() of a textgrid whose interval groups agree in extent fills the gaps of the interval groups and changes no point and no link between points. Without interval groups cleanup(), and hence the import, raises ValueError.", "quantifier": "every number of groups, tiers, classes and entries; every order of interval groups and points groups; empty point tiers included", "why_tests_cant": "The mixture of groups and the tiers in them are unbounded, and that a sweep over the interval groups touches no point is a statement about the whole heap; the tests load one fixed textgrid with points.", "anchors": ["src/aligned_textgrid/aligned_textgrid.py: __init__, _reclone_classes, _relate_tiers, cleanup", "src/aligned_textgrid/points/tiers.py: SequencePointTier.__init__, PointsGroup"]}
{"id": "C84", "title": "What the labels of PoLaR points say", "statement": "A point is uncertain exactly if its label contains a question mark, and a question mark anywhere in the label of a level does not change the level. The status of a label with * is prominence, of any other label with ] it is edge, with or without question marks. The override of a turning point is what follows the last comma of its label, None if that is 0. Violated: a label with neither * nor ] is its own status, and the uncertain label 0? without override has the override 0?.", "quantifier": "every label, of any length, and every position of the question mark", "why_tests_cant": "Labels are arbitrary strings; the tests look at a handful of labels from one annotated file.", "anchors": ["src/aligned_textgrid/polar/polar_classes.py: certainty, status, level, override"]}
{"id": "C85", "title": "Durations add up", "statement": "In a group of aligned tiers the durations of the entries any number of levels below an interval add up to the duration of the interval; all tiers of the group have the same total duration; the sub_labels (phones) of all entries of a tier, one after the other, are the labels of the tier below. The durations of a tier without overlaps and the lengths of its gaps add up to xmax - xmin. Violated for three levels that are not aligned.", "quantifier": "every group of aligned tiers, of any number of levels and entries, and every tier without overlaps", "why_tests_cant": "Depth, number of intervals and their times are unbounded; sums over arbitrarily many levels cannot be sampled.", "anchors": ["src/aligned_textgrid/sequences/sequences.py: duration, sub_labels", "src/aligned_textgrid/sequences/word_and_phone.py: phones", "src/aligned_textgrid/sequences/tiers.py: xmin, xmax, TierGroup.__init__"]}
{"id": "C86", "title": "Importing PoLaR textgrids", "statement": "If the words, phones and ranges of a PoLaR textgrid have no gaps and start and end together, the times of each point tier increase, every level lies in a range and there is a turning point, PolarGrid succeeds with the same textgrid as AlignedTextGrid; its attributes Levels, Ranges and TurningPoints are the last tiers of these classes; each level gets exactly the range its time lies in and the nearest turning point if it is close; a turning point's level is the nearest one. With an empty tier of levels nothing is related. Violated: without a tier for levels, or with levels but without ranges or turning points, or with one level outside all ranges, the whole import raises.", "quantifier": "every number of groups, tiers, entries and classes, every time and label", "why_tests_cant": "The tests import one annotated file; which tier is last, how levels lie in ranges and which points are nearest depends on unboundedly many times.", "anchors": ["src/aligned_textgrid/polar/polar_grid.py: PolarGrid.__init__, _set_named_accessors, _relate_levels_and_ranges, _relate_levels_and_points", "src/aligned_textgrid/polar/polar_classes.py: set_range_interval, set_turning_point, set_level"]}
{"id": "C87", "title": "Editing histories", "statement": "A textgrid seen as plain data is a list of groups, each a list of tiers, each a class name and rows of start, end and label. interleave_class, pop_class and shift of a textgrid that was imported from aligned tiers without gaps, and edited so before, change the plain data exactly as the edits written down for plain data say, do not raise where these are possible, and leave intervals related by containment, so that any number of edits can follow in any order. Two histories that do the same to plain data give textgrids with the same data.", "quantifier": "every such textgrid (any number of groups, tiers, entries, any times and labels) and every finite sequence of edits", "why_tests_cant": "Histories are unbounded, and each edit makes new classes, tiers and groups; the tests do one edit after a fresh import, so that what an earlier edit leaves behind (old links, cloned classes, renamed attributes) is never seen by a later one.", "anchors": ["src/aligned_textgrid/aligned_textgrid.py: interleave_class, pop_class, shift, _extend_classes, _reclone_classes", "src/aligned_textgrid/sequences/tiers.py: TierGroup.__init__, shift"]}
{"id": "C88", "title": "The groups of an imported textgrid", "statement": "Whatever tiers and classes AlignedTextGrid(textgrid, classes) is given - gaps, overlaps, unaligned or empty tiers, incomplete hierarchies, lists with classes of both kinds - if it succeeds, each list of tiers has become a group of interval tiers (if there are any) followed by a group of exactly its point tiers in order (if there are any); each tier has its name and one of the textgrid's own classes with the name of the given class; points have classes of points and intervals do not; there is at least one interval group; other textgrids keep their groups. cleanup() never changes names, classes, kinds or the tiers of points groups and adds no tier to a group, also when it raises. A flat list with a class of points raises. Violated: the second tier of one class is lost, and a class of points takes the tiers of an interval class of the same name.", "quantifier": "every textgrid, every list of tiers and classes, every state of the program", "why_tests_cant": "The tests import well-formed files; the statement is about all tiers and classes whatever, including those for which later steps change times and entries.", "anchors": ["src/aligned_textgrid/aligned_textgrid.py: AlignedTextGrid.__init__, _relate_tiers, _swap_classes, _nestify_tiers, cleanup", "src/aligned_textgrid/sequences/tiers.py: TierGroup.__init__, _arrange_tiers", "src/aligned_textgrid/points/tiers.py: SequencePointTier.__init__, PointsGroup.__init__"]}
{"id": "C89", "title": "Importing tiers whose boundaries do not match", "statement": "Let the tiers given to AlignedTextGrid(textgrid, classes) form groups that are aligned, or consist of two tiers that cover the same time without gaps but with different boundaries, where each upper entry owns a lower one. Each lower entry is assigned to the upper entry in which most of it lies and cut to the part within it; each upper entry is cut to the time from the start of its first to the end of its last lower entry. The import does exactly what it does for tiers with these times, which are determined by the given ones; if all tiers start and end at the same times, the result has these entries with one blank interval in each gap that this leaves, and is related by containment. Violated for tiers that start at 0: the blank intervals are put at the end of the tiers, out of order.", "quantifier": "every textgrid of such tiers, any number of groups, all times and labels, every tidy state", "why_tests_cant": "The tests use one or two files with a few mismatched boundaries; which entry owns which depends on all times, and the import of any such file is compared with the import of the reconciled one.", "anchors": ["src/aligned_textgrid/sequences/tiers.py: TierGroup.re_relate, TierGroup.cleanup, SequenceTier.cleanup", "src/aligned_textgrid/aligned_textgrid.py: AlignedTextGrid.__init__, cleanup", "src/aligned_textgrid/sequence_list.py: SequenceList.append"]}
{"id": "C90", "title": "Editing intervals and tiers of a textgrid in any order", "statement": "Let a textgrid be made by AlignedTextGrid(textgrid, classes) from tiers that cover the same time without gaps. atg[i][j][k].fuse_rightwards(label_fun) replaces the two rows k and k+1 of tier j of group i by one with the joined label, from the start of the first to the end of the second, and changes no other row of any tier of any group; it is possible if the two rows touch and, below the first tier, lie within one row of the tier above; a tier that has become the first by pop_class of the one above it is excepted. fuse_leftwards does the same for the rows k-1 and k of a tier below the first. atg[i][j][k].label = lab changes the label of this row only; atg.shift(d) moves all rows by d. atg.interleave_class and atg.pop_class do to the data what C87 says. This holds for all these calls in any order and any number. No call raises if the edit is possible for the plain data, and afterwards each interval has exactly the intervals inside it on the tier below as its subset list. It does not hold for tiers with gaps: the blank intervals filled in by the constructor have no precedence and no tier, so a fuse passes over them or raises.", "quantifier": "every Praat textgrid of covering aligned tiers, every hierarchy of classes, complete or without its lowest classes, every list of edits, all label functions that do not make \"#\"", "why_tests_cant": "The tests fuse a handful of intervals of one fixture; which fuse is possible depends on all fuses made before, and the histories are unbounded.", "anchors": ["src/aligned_textgrid/sequences/sequences.py: SequenceInterval.fuse_rightwards, fuse_leftwards, label", "src/aligned_textgrid/sequences/tiers.py: SequenceTier.pop, TierGroup.__getitem__", "src/aligned_textgrid/aligned_textgrid.py: AlignedTextGrid.__getitem__, shift, interleave_class, pop_class"]}
{"id": "C91", "title": "An exported textgrid can be read again", "statement": "A Praat textgrid of aligned tiers with distinct names that cover the same time without gaps is returned unchanged by AlignedTextGrid(textgrid, classes).return_textgrid(). After any edits as in C90, return_textgrid gives tiers that again are aligned in each group, cover one stretch of time without gaps and are not empty. If it is read in a new session, with classes of the names the edited textgrid had, given as nested lists or made by custom_classes(names), the constructor succeeds and the new textgrid has exactly the data of the edited one; it can be edited as any imported one, also where pop_class had made fusing impossible before. The same holds for a textgrid made from tiers with gaps or from two tiers with unmatched boundaries: after edits of its tiers (C87), export and a second import, it has the same data and can be edited as any imported one, its intervals can be fused too.", "quantifier": "every Praat textgrid of covering aligned tiers, every hierarchy of classes, complete or without its lowest classes, every list of edits before the export and after the second import, every state of the second session", "why_tests_cant": "The tests export a textgrid once and compare a few names; whether the export of an edited textgrid meets the conditions of the constructor depends on the whole history of edits.", "anchors": ["src/aligned_textgrid/aligned_textgrid.py: AlignedTextGrid.return_textgrid, AlignedTextGrid.__init__, _nestify_tiers", "src/aligned_textgrid/sequences/tiers.py: SequenceTier.return_tier", "src/aligned_textgrid/custom_classes.py: custom_classes"]}
{"id": "C92", "title": "The first and the last interval inside an interval", "statement": "In a group whose tiers fit together and are related by containment (as imports and edits leave them: C74, C87, C90), let u be an interval of a tier that is not the lowest. u.first and u.last are the two ends of the intervals of the tier below that lie inside u: from u.first on, fol leads through all of them to u.last, they cover u without gaps, and before the first and after the last there is the boundary mark. So u.first.first... with n accesses starts when u starts, u.last.last... ends when u ends, both on the tier n places below; beyond the lowest tier both raise IndexError. tier.first lies before and tier.last after all other entries of the tier, and both raise IndexError for an empty tier. For a point both raise AttributeError.", "quantifier": "every group of fitting related tiers, every interval, every number of accesses; every import of covering tiers followed by every list of edits of C90", "why_tests_cant": "The tests look at first and last of two intervals of a fixture; that the two agree with the times and with fol depends on how the relations were made and on every edit since.", "anchors": ["src/aligned_textgrid/mixins/mixins.py: PrecedenceMixins.first, last", "src/aligned_textgrid/mixins/tiermixins.py: TierMixins.first, last"]}
{"id": "C93", "title": "Adding one interval to another with +", "statement": "w + x, where x is of the subset class of w and belongs to no interval yet, is an interval with the times and the label of w whose subset intervals are those of w and x in time order, linked, each with the sum as its superset. (Violated as soon as w has subset intervals: the copy that is returned shares the attributes of w but is another object, so set_subset_list takes every interval of w out of the very list that it has just assigned; the sum holds x alone and the others lose their superset. If x is in w already the sum holds nothing at all.) x + w, the other way round, puts x into the subset list of w, takes it from its former superset and keeps all others. Intervals neither of which can hold the other are refused with ValueError and nothing changes.", "quantifier": "every admissible history of operations on intervals before the sum, every pair of intervals", "why_tests_cant": "The one test adds a phone to an empty word and then the word to a second phone, which are the two cases that work; the loss appears with the second word + phone.", "anchors": ["src/aligned_textgrid/sequences/sequences.py: InstanceMixins.__add__, set_subset_list, subset_list setter, remove_superset"]}
{"id": "C94", "title": "Edits of single intervals that are not possible raise and change nothing", "statement": "In a textgrid imported and edited as in C90, atg[i][j][k].fuse_rightwards(f) at the last interval of a tier, or where no interval of the tier above contains both the interval and the next one, raises an exception and leaves every object as it was; so does fuse_leftwards below the first tier at the first interval or across a boundary of the tier above; an index out of range raises IndexError and leaves everything as it was. With touching first tiers and labels other than the boundary mark, each edit is either possible for the plain data and done, or raises: a program that tries any list of fusions and relabellings, each in try/except, ends up with the plain data after the possible ones.", "quantifier": "every textgrid imported from aligned interval tiers without gaps (hierarchies complete or without their lowest classes) and edited by any number of fusions, relabellings, interleavings, pops and shifts; every place; every label function; every list of attempts", "why_tests_cant": "The tests fuse the last interval of one small textgrid and expect an exception; that nothing is changed by the failed call, at every boundary of every textgrid and after any history, is not observed.", "anchors": ["src/aligned_textgrid/sequences/sequences.py: SequenceInterval.fuse_rightwards, fuse_leftwards, InstanceMixins._set_subset_precedence", "src/aligned_textgrid/sequences/tiers.py: SequenceTier.__getitem__", "src/aligned_textgrid/aligned_textgrid.py: AlignedTextGrid.__getitem__"]}
{"id": "C95", "title": "A textgrid needs the highest class of each hierarchy", "statement": "AlignedTextGrid(textgrid, entry_classes) raises ValueError whenever some class given belongs to a hierarchy whose highest class is not given too, whatever the tiers contain and however tiers and classes are distributed over speakers; no entry, tier or group is made or altered, and other textgrids and classes stay as they were. Likewise append of a group of tiers with such a class to a textgrid without classes of its own.", "quantifier": "every state with well-formed classes; every list of praatio tiers and every class argument whose classes belong to hierarchies with plain, different names; every class in such a hierarchy; every tier group", "why_tests_cant": "The tests always list the classes from the highest down; nothing says what happens to [Phone] alone, for which the documentation gives no restriction.", "anchors": ["src/aligned_textgrid/aligned_textgrid.py: AlignedTextGrid._reclone_classes, _swap_classes, _relate_tiers, append"]}
{"id": "C96", "title": "cleanup() is harmless between edits", "statement": "In a textgrid imported from interval tiers that cover the same time without gaps, and edited as in C90, AlignedTextGrid.cleanup() may be called at any point: it returns and leaves the same groups, tiers, intervals, times and labels, and every edit possible without it is possible after it, so that the session leaves the same plain data with and without the cleanups. As long as every group has tiers and none has lost its first tier by pop_class (a new first tier interleaved above makes up for that), cleanup() changes nothing at all, neither in the textgrid nor in any other object. (A group whose first tier was popped: cleanup() returns but does not link its new first tier, whose touching intervals still cannot be fused.)", "quantifier": "every textgrid imported from aligned interval tiers without gaps and edited by any number of fusions, relabellings, interleavings, pops and shifts, with any number of cleanups among them", "why_tests_cant": "The tests clean up freshly read textgrids with gaps; that a cleanup between edits is harmless concerns all sequences of edits.", "anchors": ["src/aligned_textgrid/aligned_textgrid.py: AlignedTextGrid.cleanup", "src/aligned_textgrid/sequences/tiers.py: TierGroup.cleanup, xmin, xmax"]}
{"id": "C97", "title": "A word is built the same phone by phone and at once", "statement": "Giving new phones (of the subset class, without a superset, labels not \"#\", no two of the same value) to a word that has none, one by one with phone.set_word(word), does the same as word.set_phones(list): the word lists the phones in order of time, word.phones are their labels, each phone.inword is the word, the phones are doubly linked, and nothing else changes. (Violated: the phones given one by one are not within the word, so that they have no place in its path; and if a phone starts at 0 the order in which they are given matters: first, third, second leaves them in that order. Without a start of 0 any order gives the same result.)", "quantifier": "every heap, every word without phones, every list of new phones", "why_tests_cant": "The tests build single words of two phones in order; the property is about lists of any length in any order, and about what stays unchanged.", "anchors": ["src/aligned_textgrid/sequences/word_and_phone.py: Phone.set_word, inword, Word.set_phones, phone_list, phones", "src/aligned_textgrid/sequences/sequences.py: set_super_instance, append_subset_list, set_subset_list"]}
{"id": "C98", "title": "Tiers know the neighbours of their class", "statement": "A tier writes down the superset and the subset class of its entry class, and these decide how the tiers of a group are arranged and which tiers group.append lets in. After an import and any number of edits (interleave_class, pop_class, shift, fusing, relabelling) the classes written down are those of the entry class at that time, and group.append lets in exactly the tiers whose class belongs next to a class of the group and is not there yet. (Violated when groups of one hierarchy have different classes: interleaving syllables above phones leaves a group of words alone with phones written down as its subset class; it then refuses a tier of syllables with ValueError, and takes a tier of phones, which raises an exception half way and leaves the group with two unrelated tiers.)", "quantifier": "every import of aligned covering tiers, every sequence of edits, every group and every class", "why_tests_cant": "The tests interleave and pop in textgrids whose groups all have the same classes and look at the classes, not at what the tiers have written down; the property is about every tier after every sequence of edits.", "anchors": ["src/aligned_textgrid/sequences/tiers.py: SequenceTier.__init__ (superset_class, subset_class), _arrange_tiers", "src/aligned_textgrid/mixins/tiermixins.py: append", "src/aligned_textgrid/aligned_textgrid.py: interleave_class, pop_class"]}
{"id": "C99", "title": "First tiers can be fused leftwards", "statement": "fuse_leftwards on the first tier of a group does to the data what it should, and so do all edits after it: after an import, any number of edits (fuse_rightwards, fuse_leftwards on any tier, relabelling, interleave_class, pop_class, shift) in any order succeed and have exactly the expected effect on names, times and labels, and leave intervals related by containment, as long as the intervals of each first tier are fused in one direction only. (Violated in both directions: after two words have been fused rightwards the next word still has the dropped one as its previous word; fusing it leftwards raises and leaves two words that overlap. The same happens the other way round.)", "quantifier": "every import of aligned covering tiers, every sequence of edits", "why_tests_cant": "The tests fuse two intervals once and look at the result; the property is about all later edits of the same textgrid, which see the links the first fusion has left behind.", "anchors": ["src/aligned_textgrid/sequences/sequences.py: fuse_leftwards, fuse_rightwards, fol, prev", "src/aligned_textgrid/aligned_textgrid.py: AlignedTextGrid.__init__, interleave_class, pop_class, shift", "src/aligned_textgrid/mixins/tiermixins.py: shift"]}
{"id": "C100", "title": "Groups show their structure", "statement": "group.show_structure() prints one line per class, from the superset class of the first tier down to the subset class of the last, each indented by two more spaces than the one above; after an import and any number of edits these are the classes of the tiers in order and the neighbours their classes have at that time, and repr(tier) names the class and its two neighbours. A group of points, or a tier without a neighbour, raises AttributeError. (Violated when groups of one hierarchy have different classes: after interleaving syllables above phones, a group of words alone still shows phones right below words, while the other group shows syllables below the same class.)", "quantifier": "every group; every import of aligned covering tiers, every sequence of edits", "why_tests_cant": "No test looks at the printed structure; the shown classes come from what tiers wrote down earlier, so stale names only appear after edits of textgrids with uneven groups.", "anchors": ["src/aligned_textgrid/sequences/tiers.py: TierGroup.show_structure, SequenceTier.__repr__", "src/aligned_textgrid/aligned_textgrid.py: interleave_class, pop_class"]}
{"id": "C101", "title": "What intervals show of themselves agrees with the data", "statement": "repr(interval) names its class and the two neighbouring classes, its label, the label of its superset interval if it has one, and the labels of its subset list in order. After an import and any number of edits the superset shown is the interval of the tier above that contains it in time, none on the first tier, and the labels shown are those of the intervals of the tier below within it; repr of groups and textgrids gives the number and the classes of the present tiers. repr(point) gives its class, its label and its place in its tier. The same holds of the superset where the tiers have gaps or their boundaries do not match. (Violated outside of that: a phone after the last word shows that word as its superset although it lies outside of it; an interval whose superset was given an empty subset list still has this superset but shows None, because the test is the truth of the superset, which counts its subset list.)", "quantifier": "every interval of every textgrid imported from aligned covering tiers, after every sequence of edits; every textgrid imported from tiers with gaps or unmatched boundaries, after edits of C87; every tidy heap for the superset", "why_tests_cant": "No test compares the text with the data; it depends on class neighbours, links and lists that each edit rewrites, and on the truth value of an object with a length.", "anchors": ["src/aligned_textgrid/sequences/sequences.py: SequenceInterval.__repr__, __len__, sub_labels, set_subset_list", "src/aligned_textgrid/sequences/tiers.py: TierGroup.__repr__", "src/aligned_textgrid/points/tiers.py: PointsGroup.__repr__", "src/aligned_textgrid/points/points.py: SequencePoint.__repr__", "src/aligned_textgrid/aligned_textgrid.py: AlignedTextGrid.__repr__"]}
{"id": "C102", "title": "Negative indices count from the end", "statement": "atg[i][j][k] with indices of either sign is, at each of the three levels, the entry at that place of the data as they are at the time: 0, 1, ... from the front, -1, -2, ... from the back. An edit of it (fuse_rightwards, fuse_leftwards, label) is the edit at the place counted from the front; if any of the three indices leads nowhere the edit raises IndexError and changes nothing. After an import and any sequence of such edits, among other edits, the textgrid has exactly the data that result from counting and editing in the plain data. Attempts that are not possible, each in its own try, leave no trace among the others. A list of indices of a group, one for each tier, gives the entry of every tier at its own index, counted from the back where it is negative.", "quantifier": "every textgrid and all integers for a single edit; every textgrid imported from aligned covering tiers for sequences of edits", "why_tests_cant": "Tests index by a few small numbers in fixed files; places from the back move with every fusion, at three nested levels.", "anchors": ["src/aligned_textgrid/aligned_textgrid.py: AlignedTextGrid.__getitem__", "src/aligned_textgrid/sequences/tiers.py: TierGroup.__getitem__, SequenceTier.__getitem__", "src/aligned_textgrid/sequence_list.py: SequenceList.__getitem__", "src/aligned_textgrid/sequences/sequences.py: fuse_rightwards, fuse_leftwards"]}
{"id": "C103", "title": "Data frames have the data of the textgrid", "statement": "to_df(atg, with_subset=False), after an import and any sequence of edits, has one row for each interval of the edited data, group by group, tier by tier and in order of time, with its place in its tier, its label, start, end, the name of its class and the name of its group; the number of rows is the number of intervals. (Violated for tiers with gaps: the intervals that fill the gaps on import have neither an id nor a tier_index in the frame, because they do not know their tier; the other columns are right.) There is such a frame exactly when no group or tier is empty and no id or place of an entry raises. If every entry lies under the textgrid by its containers, the rows have different ids.", "quantifier": "every textgrid imported from aligned covering tiers, after every sequence of edits, whenever the frame is returned; without ids and places, also from tiers with gaps or unmatched boundaries", "why_tests_cant": "Tests count rows of one file; the place of an interval is looked up through its own tier reference, which every edit has to keep up to date.", "anchors": ["src/aligned_textgrid/outputs/to_dataframe.py: sequence_to_df, tier_to_df, tiergroup_to_df, textgrid_to_df", "src/aligned_textgrid/mixins/mixins.py: tier_index", "src/aligned_textgrid/sequences/tiers.py: SequenceTier.cleanup"]}
{"id": "C104", "title": "The data frame and the exported textgrid agree", "statement": "Whenever to_df(atg, with_subset=False) returns a data frame, it has one row for each entry of the tiers of return_textgrid, one tier after the other in the order of export, with the same start and the same label; without points the end is also the same. A point has no end in the frame.", "quantifier": "every textgrid in every state, intervals and points", "why_tests_cant": "Tests compare neither output with the other; the two walk over groups, tiers and entries in separate code, and must agree in every state that edits, cleanups and failed operations can leave.", "anchors": ["src/aligned_textgrid/outputs/to_dataframe.py: sequence_to_df, tier_to_df, tiergroup_to_df, textgrid_to_df", "src/aligned_textgrid/aligned_textgrid.py: AlignedTextGrid.return_textgrid", "src/aligned_textgrid/sequences/tiers.py: SequenceTier.return_tier", "src/aligned_textgrid/points/tiers.py: SequencePointTier.return_tier"]}
