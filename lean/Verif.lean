import Verif.Model.Base
import Verif.Model.Classes
import Verif.Model.Compose
import Verif.Model.Concat
import Verif.Model.Core
import Verif.Model.DataFrame
import Verif.Model.Ends
import Verif.Model.Group
import Verif.Model.Index
import Verif.Model.Interval
import Verif.Model.Iter
import Verif.Model.Names
import Verif.Model.Num
import Verif.Model.Points
import Verif.Model.Polar
import Verif.Model.PolarGrid
import Verif.Model.Program
import Verif.Model.Repr
import Verif.Model.SeqList
import Verif.Model.Show
import Verif.Model.SignedIndex
import Verif.Model.Sum
import Verif.Model.Textgrid
import Verif.Model.Tier
import Verif.Model.Within
import Verif.Model.WordPhone
import Verif.Spec.Add
import Verif.Spec.Append
import Verif.Spec.Basic
import Verif.Spec.Book
import Verif.Spec.BothWays
import Verif.Spec.Bounded
import Verif.Spec.Cleanup
import Verif.Spec.Clip
import Verif.Spec.Draft
import Verif.Spec.EmptyTop
import Verif.Spec.Fuse
import Verif.Spec.Gaps
import Verif.Spec.Grid
import Verif.Spec.Group
import Verif.Spec.History
import Verif.Spec.Homely
import Verif.Spec.Import
import Verif.Spec.ImportPoints
import Verif.Spec.Interleave
import Verif.Spec.Kinds
import Verif.Spec.Lookup
import Verif.Spec.Mismatch
import Verif.Spec.Nest
import Verif.Spec.Portrait
import Verif.Spec.Program
import Verif.Spec.Reclass
import Verif.Spec.Refuse
import Verif.Spec.Signed
import Verif.Spec.Spans
import Verif.Spec.Stair
import Verif.Spec.Stem
import Verif.Spec.Table
import Verif.Spec.Touch
import Verif.Spec.Within
import Verif.Spec.WordPhone
import Verif.Lemmas.AddGroups
import Verif.Lemmas.AddTiers
import Verif.Lemmas.Adopt
import Verif.Lemmas.Aligned
import Verif.Lemmas.AlignedTrans
import Verif.Lemmas.AppendStep
import Verif.Lemmas.Arrange
import Verif.Lemmas.ArrangeFlag
import Verif.Lemmas.Assign
import Verif.Lemmas.AtgAppend
import Verif.Lemmas.AtgOf
import Verif.Lemmas.BookClasses
import Verif.Lemmas.BookImport
import Verif.Lemmas.BookInterleave
import Verif.Lemmas.BookInv
import Verif.Lemmas.BookPop
import Verif.Lemmas.BothSpans
import Verif.Lemmas.BothWays
import Verif.Lemmas.Bounded
import Verif.Lemmas.BuildGroup
import Verif.Lemmas.BuildMixed
import Verif.Lemmas.BuildPoints
import Verif.Lemmas.BuildTiers
import Verif.Lemmas.Classes
import Verif.Lemmas.CleanAgain
import Verif.Lemmas.CleanLevel
import Verif.Lemmas.ClipBuild
import Verif.Lemmas.ClipGroup
import Verif.Lemmas.ClipReach
import Verif.Lemmas.ClipSame
import Verif.Lemmas.ClipValue
import Verif.Lemmas.Clone
import Verif.Lemmas.Concat
import Verif.Lemmas.CtFrame
import Verif.Lemmas.Custom
import Verif.Lemmas.CustomReach
import Verif.Lemmas.DataFrame
import Verif.Lemmas.Drill
import Verif.Lemmas.Extent
import Verif.Lemmas.Fill
import Verif.Lemmas.Filled
import Verif.Lemmas.FlatIndex
import Verif.Lemmas.Frame
import Verif.Lemmas.Fuse
import Verif.Lemmas.FuseAlign
import Verif.Lemmas.FuseAll
import Verif.Lemmas.FuseBook
import Verif.Lemmas.FuseDrop
import Verif.Lemmas.FuseRun
import Verif.Lemmas.GapAlign
import Verif.Lemmas.Gaps
import Verif.Lemmas.GridSweep
import Verif.Lemmas.GroupAligned
import Verif.Lemmas.GroupApart
import Verif.Lemmas.GroupClean
import Verif.Lemmas.GroupConcat
import Verif.Lemmas.GroupFill
import Verif.Lemmas.GroupMake
import Verif.Lemmas.GroupRun
import Verif.Lemmas.GroupSweep
import Verif.Lemmas.Headless
import Verif.Lemmas.History
import Verif.Lemmas.Homely
import Verif.Lemmas.Import
import Verif.Lemmas.ImportMixed
import Verif.Lemmas.InterleaveAll
import Verif.Lemmas.InterleaveGroup
import Verif.Lemmas.InterleaveRun
import Verif.Lemmas.IvalAppend
import Verif.Lemmas.IvalCleanup
import Verif.Lemmas.Kinds
import Verif.Lemmas.Link
import Verif.Lemmas.LiveList
import Verif.Lemmas.Lookup
import Verif.Lemmas.Names
import Verif.Lemmas.NewTier
import Verif.Lemmas.Num
import Verif.Lemmas.Numbers
import Verif.Lemmas.Ops
import Verif.Lemmas.Overlap
import Verif.Lemmas.Pad
import Verif.Lemmas.PadLoop
import Verif.Lemmas.Points
import Verif.Lemmas.PopAll
import Verif.Lemmas.PopGroup
import Verif.Lemmas.PopRun
import Verif.Lemmas.Portrait
import Verif.Lemmas.Prec
import Verif.Lemmas.Program
import Verif.Lemmas.ProjectUp
import Verif.Lemmas.ReRelate
import Verif.Lemmas.Recast
import Verif.Lemmas.Reclone
import Verif.Lemmas.RecloneMore
import Verif.Lemmas.ReclonePoints
import Verif.Lemmas.RecloneTop
import Verif.Lemmas.Refuse
import Verif.Lemmas.RelateChain
import Verif.Lemmas.RelateRun
import Verif.Lemmas.RelatedAll
import Verif.Lemmas.Reload
import Verif.Lemmas.Remove
import Verif.Lemmas.Retime
import Verif.Lemmas.SeqList
import Verif.Lemmas.SetSubs
import Verif.Lemmas.Shift
import Verif.Lemmas.Skeleton
import Verif.Lemmas.Snap
import Verif.Lemmas.SnapPair
import Verif.Lemmas.SpanLists
import Verif.Lemmas.Stair
import Verif.Lemmas.Stem
import Verif.Lemmas.StemAppend
import Verif.Lemmas.StemRelate
import Verif.Lemmas.Step
import Verif.Lemmas.Strings
import Verif.Lemmas.Sum
import Verif.Lemmas.TierInit
import Verif.Lemmas.TilesS
import Verif.Lemmas.TimeFrame
import Verif.Lemmas.Total
import Verif.Lemmas.TouchBook
import Verif.Lemmas.Tree
import Verif.Lemmas.Trim
import Verif.Lemmas.Walk
import Verif.Lemmas.Weave
import Verif.Lemmas.Weave2
import Verif.Lemmas.Within
import Verif.Lemmas.WordPhone
import Verif.Lemmas.WorkInv
import Verif.Props.Append
import Verif.Props.AtgAppend
import Verif.Props.Book
import Verif.Props.BookGaps
import Verif.Props.BothWays
import Verif.Props.Bounded
import Verif.Props.Classes
import Verif.Props.Cleanup
import Verif.Props.Cleanups
import Verif.Props.Compose
import Verif.Props.Concat
import Verif.Props.Custom
import Verif.Props.DataFrame
import Verif.Props.Durations
import Verif.Props.EmptyTop
import Verif.Props.Ends
import Verif.Props.Extent
import Verif.Props.Fuse
import Verif.Props.Group
import Verif.Props.GroupAppend
import Verif.Props.GroupAppendIn
import Verif.Props.GroupCleanup
import Verif.Props.GroupConcat
import Verif.Props.GroupNames
import Verif.Props.Headless
import Verif.Props.Hierarchy
import Verif.Props.Interleave
import Verif.Props.InterleavePop
import Verif.Props.InterleaveTiers
import Verif.Props.Iter
import Verif.Props.IvalCleanup
import Verif.Props.Kinds
import Verif.Props.Links
import Verif.Props.LiveList
import Verif.Props.Lookup
import Verif.Props.Mismatch
import Verif.Props.Names
import Verif.Props.Neighbours
import Verif.Props.Nest
import Verif.Props.NestMany
import Verif.Props.Numbers
import Verif.Props.Points
import Verif.Props.Polar
import Verif.Props.PolarImport
import Verif.Props.PolarLabels
import Verif.Props.PolarRanges
import Verif.Props.PopTiers
import Verif.Props.Portraits
import Verif.Props.Program
import Verif.Props.Queries
import Verif.Props.Refuse
import Verif.Props.Relate
import Verif.Props.Reload
import Verif.Props.ReloadGaps
import Verif.Props.RoundTrip
import Verif.Props.SeqList
import Verif.Props.Setters
import Verif.Props.Shift
import Verif.Props.Signed
import Verif.Props.Structure
import Verif.Props.Sum
import Verif.Props.TableExport
import Verif.Props.Tables
import Verif.Props.TgCleanup
import Verif.Props.TgGroups
import Verif.Props.TgImport
import Verif.Props.TgPoints
import Verif.Props.Touch
import Verif.Props.Unaligned
import Verif.Props.Within
import Verif.Props.WordPhone
