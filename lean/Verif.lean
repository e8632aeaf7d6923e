import Verif.Basic
import Verif.Approx
import Verif.ApproxProps
import Verif.Sort
import Verif.Graph
import Verif.GraphSpec
import Verif.Building
import Verif.BuildingSpec
import Verif.BuildingLemmas
import Verif.BuildingLemmas2
import Verif.BuildingLemmas3
import Verif.BuildingLemmas4
import Verif.BuildingProps
import Verif.Path
import Verif.RouteSpec
import Verif.PathProps
import Verif.Dijkstra
import Verif.Search
import Verif.SearchInv
import Verif.SearchComplete
import Verif.SearchOpt
import Verif.SearchTerm
import Verif.DijkstraLemmas
import Verif.DijkstraLemmas2
import Verif.BinHeap
import Verif.BinHeapLemmas
import Verif.DijkstraSpec
import Verif.DijkstraLemmas3
import Verif.DijkstraLemmas4
import Verif.DijkstraLemmas5
import Verif.Hierarchy
import Verif.DijkstraProps
import Verif.Parallel
import Verif.ParallelSpec
import Verif.ParallelLemmas
import Verif.ParallelInv
import Verif.FuelMono
import Verif.ParallelDijkstra
import Verif.ParallelProps
import Verif.Text
import Verif.TextLemmas
import Verif.Streets
import Verif.Config
import Verif.Pbf
import Verif.OsmSpec
import Verif.OsmProps
import Verif.ConfigSpec
import Verif.ConfigProps
import Verif.Generating
import Verif.GeneratingSpec
import Verif.GeneratingLemmas
import Verif.GeneratingLemmas2
import Verif.GeneratingLemmas3
import Verif.GeneratingProps
import Verif.RebuildSpec
import Verif.RebuildLemmas
import Verif.RebuildProps
import Verif.Fmi
import Verif.FmiSpec
import Verif.FmiLemmas
import Verif.FmiLemmas2
import Verif.FmiLemmas3
import Verif.FmiSample
import Verif.FmiProps
import Verif.FmiReadProps
import Verif.CsvProps
import Verif.Routes
import Verif.RoutesSpec
import Verif.RoutesLemmas
import Verif.RoutesProps
import Verif.Balancing
import Verif.BalancingSpec
import Verif.BalancingLemmas
import Verif.BalancingProps
import Verif.Matrix
import Verif.MatrixProps
import Verif.Smarts
import Verif.SmartsProps
import Verif.Explorating
import Verif.ExploratingSpec
import Verif.ExploratingLemmas1
import Verif.ExploratingLemmas2
import Verif.ExploratingLemmas3
import Verif.ExploratingLemmas4
import Verif.ExploratingProps
import Verif.SearchSimple
import Verif.SimpleLemmas
import Verif.SimpleProps
import Verif.ExploratingHullSpec
import Verif.ExploratingDistinct
import Verif.ExploratingTerm
import Verif.ExploratingHullProps
import Verif.ExploratingReuse
import Verif.ParallelExplorator
import Verif.ParallelExploratorSpec
import Verif.ParallelExploratorLemmas
import Verif.ParallelExploratorProps
import Verif.WeightsLemmas
import Verif.WeightsProps
import Verif.RecordSpec
import Verif.RecordLemmas
import Verif.RecordProps
import Verif.BinHeapNear
import Verif.SearchNear
import Verif.NearProps
import Verif.StreetRoutesSpec
import Verif.StreetRoutesLemmas
import Verif.StreetRoutesProps
import Verif.BalancingRun
import Verif.BalancingRunSpec
import Verif.BalancingRunProps
import Verif.IdleProps
import Verif.Tool
import Verif.ToolSpec
import Verif.ToolProps
import Verif.SearchRound
import Verif.Float
import Verif.FloatLemmas
import Verif.ShortRoutes
import Verif.FloatProps
import Verif.Lockstep
import Verif.LockstepHeap
import Verif.FloatExactProps
import Verif.ChunksProps
import Verif.CellSpec
import Verif.CellProps
import Verif.CompleteSpec
import Verif.CompleteLemmas
import Verif.CompleteProps
import Verif.FacetSpec
import Verif.FacetLemmas
import Verif.FacetProps
import Verif.Yaml
import Verif.YamlConfig
import Verif.YamlSpec
import Verif.YamlLemmas
import Verif.YamlKeys
import Verif.YamlOrder
import Verif.YamlDocSpec
import Verif.YamlDocLemmas
import Verif.YamlEmbedLemmas
import Verif.YamlSample
import Verif.YamlProps
import Verif.Session
import Verif.SessionSpec
import Verif.SessionLines
import Verif.SessionLemmas
import Verif.SessionLemmas2
import Verif.SessionProps
import Verif.ContractSpec
import Verif.ContractLemmas
import Verif.FlattenSpec
import Verif.FlattenProps
import Verif.ContractProps
import Verif.SessionChSpec
import Verif.SessionChLines
import Verif.SessionChProps
import Verif.SlowLemmas
import Verif.SlowProps
import Verif.SessionStreetsSpec
import Verif.SessionStreetsLemmas
import Verif.SessionStreetsProps
import Verif.Export
import Verif.ExportSpec
import Verif.ExportLemmas
import Verif.ExportProps
import Verif.Pairs
import Verif.PairsSpec
import Verif.PairsLemmas
import Verif.PairsProps
import Verif.Evaluate
import Verif.EvaluateSpec
import Verif.EvaluateLemmas
import Verif.EvaluateProps
import Verif.Balancer
import Verif.BalancerSpec
import Verif.BalancerLemmas
import Verif.BalancerProps
import Verif.BalancedSpec
import Verif.BalancedLemmas
import Verif.BalancedProps
import Verif.SessionFuel
import Verif.SessionChForever
import Verif.FitSpec
import Verif.FitLemmas
import Verif.Shipped
import Verif.FitProps
import Verif.TestsSpec
import Verif.Tests
import Verif.TestsLemmas
import Verif.TestsLemmas2
import Verif.TestsProps
import Verif.Visual
import Verif.VisualSpec
import Verif.VisualLemmas
import Verif.VisualLemmas2
import Verif.VisualProps
import Verif.Norm
import Verif.NormProps
import Verif.ToolSpec2
import Verif.ToolProps2
import Verif.CyclicSpec
import Verif.CyclicProps
import Verif.Cmdline
import Verif.CmdlineSpec
import Verif.CmdlineProps
import Verif.SessionProps2
import Verif.SessionChExplore
import Verif.SessionExploreEnds
import Verif.ShuffleLemmas
import Verif.ShuffleProps
import Verif.ShuffleSpec
import Verif.ShuffleMap
import Verif.LayoutSpec
import Verif.LayoutProps
import Verif.Overflow
import Verif.OverflowLemmas
import Verif.OverflowLemmas2
import Verif.OverflowSearch
import Verif.OverflowRun
import Verif.OverflowSpec
import Verif.OverflowProps
import Verif.Special
import Verif.SpecialSpec
import Verif.SpecialLemmas
import Verif.SpecialLemmas2
import Verif.SpecialLemmas3
import Verif.SpecialProps
import Verif.OverflowNear
import Verif.OverflowPad
import Verif.SpecialLemmas4
import Verif.Alphas
import Verif.AlphasSpec
import Verif.AlphasLemmas
import Verif.AlphasProps
import Verif.Describe
import Verif.DescribeSpec
import Verif.DescribeLemmas
import Verif.DescribeProps
import Verif.Figures
import Verif.FiguresSpec
import Verif.FiguresLemmas
import Verif.FiguresProps
import Verif.BalanceFloat
import Verif.BalanceFloatSpec
import Verif.BalanceFloatLemmas
import Verif.BalanceFloatLemmas2
import Verif.BalanceFloatLemmas3
import Verif.BalanceFloatProps
import Verif.NormFloat
import Verif.NormFloatSpec
import Verif.NormFloatLemmas
import Verif.NormFloatProps
import Verif.BalanceFloatRun
import Verif.BalanceFloatRunSpec
import Verif.BalanceFloatRunLemmas
import Verif.BalanceFloatRunProps
import Verif.PathFloat
import Verif.PathFloatSpec
import Verif.PathFloatLemmas
import Verif.PathFloatProps
import Verif.BuildingIdsLemmas
import Verif.BuildingIdsProps
import Verif.CheckDimsProps
import Verif.StatsFloat
import Verif.StatsFloatLemmas
import Verif.StatsFloatProps
import Verif.ToleranceFloat
import Verif.ToleranceFloatProps
import Verif.StatsFloatRunProps
import Verif.Debug
import Verif.DebugProps
import Verif.MapName
import Verif.MapNameProps
