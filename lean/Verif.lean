import Verif.Split.Props
import Verif.Strings.Props
import Verif.Find.Props
import Verif.Codec.Props
import Verif.Number.Props
import Verif.Fast.Props
import Verif.Sinks.Props
import Verif.Parse.Props
import Verif.Join.Props
import Verif.Combi.Binomial
import Verif.Combi.Perm
import Verif.Combi.Next
import Verif.Combi.ForEach
import Verif.Combi.Comb
import Verif.Random.Props
import Verif.Random.Rounded
import Verif.Random.Seeds
import Verif.Binary.Bounds
import Verif.Text.Props
import Verif.Consec.Props
import Verif.Trie.Props
import Verif.Bloom.File
import Verif.Hash.Props
import Verif.KeyValue.Props
import Verif.KeyValue.Throwing
import Verif.KeyValue.Pairs
import Verif.Grid.QuoteProps
import Verif.Grid.Csv
import Verif.FileIO.Props
import Verif.Lines.Props
import Verif.Guards.Props
import Verif.Columns.Props
import Verif.Misc.Canonical
import Verif.Misc.Props
import Verif.Real.Value
import Verif.Binary.Moves
import Verif.Binary.Sound
import Verif.Binary.Stream
import Verif.Binary.Room
import Verif.Handles.Props
import Verif.Boxes.Props
import Verif.Real.Decimal
import Verif.Real.DecimalIeee
import Verif.Real.Order
import Verif.Real.TripOrder
import Verif.Real.Extended
import Verif.Real.TripExtended
import Verif.Real.DecimalMem
import Verif.Combi.Conditional
import Verif.Combi.Ranges
import Verif.Parse.SinkType
import Verif.Real.Rounded
import Verif.ExtString.Props
import Verif.Strings.Iter
import Verif.Misc.Size
import Verif.Misc.Adapter
import Verif.Bloom.Exact
import Verif.Grid.More
import Verif.Grid.Life
import Verif.Misc.Scope
import Verif.Misc.Inserters
import Verif.Number.Length
import Verif.Split.Objects
import Verif.Targets.Props
import Verif.Combi.Permute
import Verif.Misc.Timer
import Verif.Misc.TimerSeconds
import Verif.Trie.Objects
import Verif.Combi.Iterator
import Verif.Bloom.Optimal
import Verif.Bloom.Hash
import Verif.Codec.Malformed
import Verif.Codec.Raw
import Verif.Split.Regex
import Verif.Real.Switches
import Verif.Real.ToText
import Verif.Real.Ieee
import Verif.Real.Trip64
import Verif.Real.Float
import Verif.Hash.Value
import Verif.Fast.Wrap
import Verif.Programs.Ipv4
import Verif.Programs.Hexview
import Verif.Programs.WordFreq
import Verif.Programs.Combinations
import Verif.Combi.Steps
import Verif.Parse.LineArgs
import Verif.Parse.CString
import Verif.Find.Greedy
import Verif.Programs.Glober
import Verif.Programs.RandomLine
import Verif.Random.Fair
import Verif.Programs.Period
import Verif.Programs.Randomizer
import Verif.Programs.Numstats
import Verif.Programs.TextParser
import Verif.Programs.CombExamples
import Verif.Programs.BloomExample
import Verif.Programs.Converters
import Verif.Programs.SearchTrie
import Verif.Programs.KeyValueExample
import Verif.Programs.TokenGridExample
import Verif.Programs.SerializerExample
import Verif.Programs.TokenizerTest
import Verif.Programs.TokenizerCmp
import Verif.Programs.TokenizerCmpReal
import Verif.Programs.TokenizerCmpShipped
import Verif.Combi.Threads
import Verif.FileIO.Crash
import Verif.Binary.Cut
import Verif.Lines.Cut
import Verif.Programs.ParseExamples
import Verif.Programs.GuardExamples
import Verif.Bloom.Memory
import Verif.Trie.Memory
import Verif.Shared.Strings
import Verif.Shared.Parse
import Verif.Grid.Sums
import Verif.Bloom.Refused
import Verif.Bloom.Crash
import Verif.Bloom.Threads
import Verif.Consec.Strings
import Verif.Throwing.Props
import Verif.Throwing.Grid
import Verif.Grid.RealSums
import Verif.Grid.Memory
import Verif.Split.Callbacks
import Verif.Conformance
import Verif.Parse.Throwing
import Verif.Split.TokCallbacks
import Verif.Refused.Props
import Verif.Refused.Counts
import Verif.Refused.GridJoin
import Verif.Refused.GridAlias
import Verif.Refused.GridAliasColumn
import Verif.Refused.GridAliasColumnIf
import Verif.Refused.GridJoinIf
import Verif.Binary.Memory
import Verif.Bloom.OptimalIeee
import Verif.Misc.TypeNames
import Verif.Bloom.EffectiveIeee
import Verif.Grid.Column
