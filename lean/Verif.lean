import Verif.Basic
import Verif.StdOrd.Cmp
import Verif.StdOrd.Map
import Verif.LRU.Model
import Verif.LRU.Spec
import Verif.LRU.Lemmas
import Verif.LRU.Refine
import Verif.LRU.History
import Verif.LRU.Props
import Verif.LRU.Refs
import Verif.LRU.Recover
import Verif.LRU.Memo
import Verif.LRU.Values
import Verif.LRU.Recursive
import Verif.LRU.Fibonacci
import Verif.LRU.Three
import Verif.Stream.Model
import Verif.Seq.Model
import Verif.Seq.Spec
import Verif.Stream.Lemmas
import Verif.Seq.Lemmas
import Verif.Seq.Read
import Verif.Seq.Digits
import Verif.Seq.Props
import Verif.BinWord.Model
import Verif.BinWord.Spec
import Verif.BinWord.Props
import Verif.BinWord.IO
import Verif.BinWord.Mixed
import Verif.Arr.Model
import Verif.Arr.Spec
import Verif.Arr.Lemmas
import Verif.Arr.Step
import Verif.Arr.Ops
import Verif.Arr.Count
import Verif.Arr.Props
import Verif.Arr.Faults
import Verif.Arr.Reversed
import Verif.Arr.Complement
import Verif.Arr.Oversize
import Verif.Arr.Uninit
import Verif.Arr.Convert
import Verif.Arr.Iterators
import Verif.Arr.Danger
import Verif.Shared.Faults
import Verif.Shared.Threads
import Verif.SetC.Faults
import Verif.ListC.Linked
import Verif.Shared.Model
import Verif.Shared.Props
import Verif.SetC.Props
import Verif.MapC.Props
import Verif.ListC.Props
import Verif.ListC.Changing
import Verif.Range.Props
import Verif.Iter.Props
import Verif.Iter.Algo
import Verif.Iter.Pair
import Verif.Lazy.Props
import Verif.Lazy.Reentrant
import Verif.Lazy.BigStep
import Verif.Lazy.Threads
import Verif.Lazy.Busy
import Verif.Stopwatch.Props
import Verif.Handle.Refs
import Verif.Handle.Last
import Verif.Meta.Props
import Verif.Variant.Props
import Verif.Variant.Codes
import Verif.TupleC.Props
import Verif.Macro.Props
import Verif.Macro.Threads
import Verif.TestC.Props
import Verif.StackTrace.Props
import Verif.Randomiser.Props
import Verif.Randomiser.Threads
import Verif.Writable.Props
import Verif.Seq.Nested
import Verif.Seq.Chars
import Verif.Seq.Locale
import Verif.Seq.Misread
import Verif.Meta.Invoke
import Verif.Overload.Props
import Verif.Lookup.Props
import Verif.Seq.Fail
import Verif.TestC.Texts
import Verif.MText.Props
import Verif.MText.Grammar
import Verif.MText.Args
import Verif.TestC.Grid
import Verif.Stmts.Props
import Verif.Names.Props
import Verif.Names.Loops
import Verif.Using.Props
import Verif.Tests.Props
import Verif.Seq.Unsigned
import Verif.Handle.Threads
import Verif.Handle.Construct
import Verif.Handle.Delete
import Verif.Handle.Throw
import Verif.Handle.Const
import Verif.Lifetime.Props
import Verif.Wf.Props
import Verif.Handle.Error
import Verif.Handle.HierarchyExamples
import Verif.Double.Props
import Verif.Double.Text
import Verif.Double.Decimal
import Verif.Double.Field
import Verif.Double.ReadBack
import Verif.Double.Numerals
import Verif.Seq.Total
import Verif.Double.Range
import Verif.Double.RangeProps
import Verif.Double.RangeNumerals
import Verif.Arith.Props
import Verif.Meta.Operators
import Verif.Link.Props
import Verif.LRU.Threads
import Verif.LRU.Unsync
import Verif.Randomiser.Statics
import Verif.Randomiser.Real
import Verif.Randomiser.RealRuns
import Verif.Randomiser.Ints
import Verif.Randomiser.IntsRuns
import Verif.Randomiser.Seed
import Verif.Randomiser.SeedRuns
import Verif.Wf.Builtin
import Verif.Seq.FormatProps
import Verif.Seq.MaskProps
import Verif.Seq.EndsProps
import Verif.Seq.RawProps
import Verif.Keys.Props
import Verif.Seq.SinkProps
import Verif.LRU.IdiomProps
import Verif.Shared.Iter
import Verif.Seq.Adjust
import Verif.Seq.Copies
import Verif.Seq.CopiesText
import Verif.Handle.Extract
import Verif.Meta.ResultOf
import Verif.TestC.Within
import Verif.TestC.WithinRuns
import Verif.TestC.WithinRange
import Verif.TestC.WithinRangeRuns
import Verif.Arith.Compare
import Verif.Arith.CompareRuns
import Verif.Iter.PairPrint
