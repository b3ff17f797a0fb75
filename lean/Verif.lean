import Verif.Vector.Input
import Verif.Vector.Client
import Verif.Vector.Steps
import Verif.Vector.Hist
import Verif.Vector.Access
import Verif.Vector.Props.History
import Verif.Vector.Props.Capacity
import Verif.Vector.Props.Limits
import Verif.Vector.Props.Values
import Verif.Bytes
import Verif.Str.Hist
import Verif.Str.Props.History
import Verif.Str.Props.Limits
import Verif.Str.Props.Values
import Verif.Str.Props.Access
import Verif.Bitset.Hist
import Verif.Bitset.Props.Bits
import Verif.Bitset.Props.Streams
import Verif.Bitset.Props.Refs
import Verif.Ops
import Verif.Variant.Hist
import Verif.Variant.Props.History
import Verif.Variant.Props.Access
import Verif.Variant.Props.Limits
import Verif.Optional.Hist
import Verif.Optional.Props.History
import Verif.Optional.Props.Access
import Verif.OptRef.Props
import Verif.VarRef.Props
import Verif.View.Props
import Verif.Iter.Containers
import Verif.Arr.Props
import Verif.Tuple.Props
import Verif.Fun.Props
import Verif.Union.Props
import Verif.Layout.Props
import Verif.Overload.Props
import Verif.Vector.Props.Brace
import Verif.Compare.Model
import Verif.Compare.Props
import Verif.Overload.Emplace
import Verif.Overload.Visit
import Verif.Progress
import Verif.Layout.Vector
import Verif.Cost
import Verif.Vector.Cost
import Verif.Vector.Props.Cost
import Verif.Str.Cost
import Verif.Str.Props.Cost
import Verif.Overload.Best
import Verif.Iter.Mixed
import Verif.Overload.Text
import Verif.Overload.Braces
import Verif.Constexpr.Basic
import Verif.Constexpr.Classes
import Verif.Str.Props.Terminator
import Verif.Vector.Props.Modules
import Verif.Str.Props.Modules
import Verif.Terminate.Props
import Verif.Str.Props.Buffer
import Verif.Optional.Props.Mixed
import Verif.Vector.Props.References
import Verif.Vector.Props.Frame
import Verif.Str.Props.Frame
import Verif.Optional.Props.Frame
import Verif.Variant.Props.Frame
import Verif.Bitset.Props.Frame
import Verif.Arr.Frame
import Verif.Tuple.Frame
import Verif.Traits.Props
import Verif.Refs.Props
import Verif.Fun.Chain
import Verif.Traits.Recursive
import Verif.Iter.Tags
import Verif.Sizes
import Verif.Traits.Numbers
import Verif.Overload.Bindings
import Verif.Nested.Types
import Verif.Access.Const
import Verif.Tests.Vector
import Verif.Tests.Str
import Verif.Tests.Bitset
import Verif.Tests.Variant
import Verif.Tests.Optional
import Verif.Tests.Arr
import Verif.Tests.Tuple
import Verif.Tests.Refs
import Verif.Tests.Static
import Verif.Deduce.Props
import Verif.Text.Stream
import Verif.Includes
import Verif.Reads.Props
import Verif.Vector.Props.Algorithms
import Verif.Str.Props.Algorithms
import Verif.Threads.Vector
import Verif.Threads.Str
import Verif.Threads.Optional
import Verif.Threads.Variant
import Verif.Threads.Arr
import Verif.Threads.Tuple
import Verif.Threads.Bitset
import Verif.Arr.Algorithms
import Verif.View.Algorithms
import Verif.Vector.Props.Inserters
import Verif.Str.Props.Inserters
import Verif.Vector.Props.Ways
import Verif.Str.Props.Ways
import Verif.Optional.Props.Lifetime
import Verif.Variant.Props.Lifetime
import Verif.Client
import Verif.Vector.Props.Alike
import Verif.Str.Props.Alike
import Verif.Vector.Props.Growth
import Verif.Vector.Props.Memory
import Verif.Str.Props.Memory
import Verif.Audit
