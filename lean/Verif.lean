import Verif.Model.Go
import Verif.Model.Stream
import Verif.Model.WildcardNode
import Verif.Proofs.Bytes
import Verif.Proofs.Stream
import Verif.Proofs.WP
import Verif.Proofs.Heap
import Verif.Proofs.Trie
import Verif.Proofs.Forest
import Verif.Proofs.ForestOps
import Verif.Proofs.AddSequence
import Verif.Props.StreamProps
import Verif.Model.Value
import Verif.Model.Join
import Verif.Spec.Positions
import Verif.Proofs.StreamLog
import Verif.Proofs.RootOps
import Verif.Proofs.TrieSem
import Verif.Proofs.Join
import Verif.Props.JoinProps
import Verif.Model.Wildcard
import Verif.Spec.Table
import Verif.Spec.Crash
import Verif.Proofs.Metadata
import Verif.Proofs.WildcardBuild
import Verif.Proofs.WildcardCreate
import Verif.Proofs.WildcardQuery
import Verif.Proofs.WildcardLife
import Verif.Proofs.WildcardFail
import Verif.Proofs.WildcardCrash
import Verif.Proofs.WildcardOther
import Verif.Proofs.WildcardCut
import Verif.Proofs.WildcardAccept
import Verif.Props.WildcardProps
import Verif.Props.WildcardFileProps
import Verif.Model.MapIndex
import Verif.Model.Noop
import Verif.Spec.Records
import Verif.Proofs.Conj
import Verif.Proofs.MapNoop
import Verif.Props.MapNoopProps
import Verif.Props.MapBuildProps
import Verif.Model.Sort
import Verif.Spec.Order
import Verif.Proofs.Sort
import Verif.Props.SortProps
import Verif.Model.Text
import Verif.Model.Parser
import Verif.Model.Charset
import Verif.Spec.Text
import Verif.Proofs.Text
import Verif.Proofs.Parser
import Verif.Props.ParserProps
import Verif.Model.Path
import Verif.Spec.Path
import Verif.Proofs.Path
import Verif.Proofs.Records
import Verif.Props.PathProps
import Verif.Model.Reader
import Verif.Spec.Reader
import Verif.Proofs.Reader
import Verif.Props.InputProps
import Verif.Model.Output
import Verif.Spec.Output
import Verif.Proofs.Output
import Verif.Props.OutputProps
import Verif.Spec.SameFilter
import Verif.Proofs.SameFilter
import Verif.Props.SameFilterProps
import Verif.Props.LimitProps
import Verif.Spec.Relationship
import Verif.Proofs.Relationship
import Verif.Props.RelationshipProps
import Verif.Model.Regexp
import Verif.Spec.Regexp
import Verif.Proofs.Regexp
import Verif.Model.Service
import Verif.Model.Shutdown
import Verif.Spec.Service
import Verif.Proofs.Service
import Verif.Props.ServiceProps
import Verif.Props.EndToEndProps
import Verif.Props.RouteProps
import Verif.Model.Config
import Verif.Model.Startup
import Verif.Spec.Config
import Verif.Proofs.Config
import Verif.Proofs.ConfigOrder
import Verif.Proofs.Startup
import Verif.Props.ConfigProps
import Verif.Props.StartOnFilesProps
import Verif.Spec.WellFormed
import Verif.Proofs.WellFormed
import Verif.Props.WellFormedProps
import Verif.Spec.Running
import Verif.Proofs.Running
import Verif.Props.RunningProps
import Verif.Model.Sql
import Verif.Model.Sqlite
import Verif.Spec.Sqlite
import Verif.Proofs.Sql
import Verif.Proofs.SqlText
import Verif.Proofs.SqliteDb
import Verif.Proofs.SqliteCrash
import Verif.Proofs.SqliteQuery
import Verif.Proofs.SqliteBuild
import Verif.Props.SqliteNames
import Verif.Props.SqliteProps
import Verif.Model.Fts5
import Verif.Proofs.FtsText
import Verif.Proofs.FtsBuild
import Verif.Props.FtsProps
import Verif.Model.Indexes
import Verif.Spec.Storage
import Verif.Spec.Earlier
import Verif.Props.StorageProps
import Verif.Model.CsvText
import Verif.Model.Inputs
import Verif.Spec.CsvText
import Verif.Proofs.CsvText
import Verif.Props.CsvTextProps
import Verif.Spec.Files
import Verif.Proofs.Files
import Verif.Props.FilesProps
import Verif.Spec.RelatedData
import Verif.Props.RelatedProps
import Verif.Model.JsonText
import Verif.Spec.Json
import Verif.Proofs.JsonRead
import Verif.Proofs.JsonWrite
import Verif.Proofs.JsonSame
import Verif.Proofs.JsonSound
import Verif.Proofs.JsonFiles
import Verif.Props.JsonTextProps
import Verif.Props.ErrorBodiesProps
import Verif.Spec.JsonFiles
import Verif.Props.JsonFilesProps
import Verif.Props.RelatedFilesProps
import Verif.Spec.StoredFiles
import Verif.Props.StoredFilesProps
import Verif.Props.WatchProps
import Verif.Spec.Refused
import Verif.Props.RefusedProps
import Verif.Model.Expand
import Verif.Spec.Expand
import Verif.Props.ExpandProps
import Verif.Model.Yaml
import Verif.Spec.Yaml
import Verif.Spec.YamlWritten
import Verif.Proofs.Yaml
import Verif.Proofs.YamlWritten
import Verif.Props.YamlProps
import Verif.Model.ConfigFile
import Verif.Spec.ConfigFile
import Verif.Proofs.YamlCalm
import Verif.Props.ConfigFileProps
import Verif.Props.MainProps
import Verif.Props.MainExactProps
import Verif.Props.JsonFetchProps
import Verif.Props.PagesProps
import Verif.Props.XmlInputProps
import Verif.Props.XmlFilesProps
import Verif.Props.XmlTextProps
import Verif.Props.XmlCutProps
import Verif.Props.XmlExprProps
import Verif.Proofs.JsonCut
import Verif.Props.JsonCutProps
import Verif.Proofs.CsvCut
import Verif.Props.CsvCutProps
import Verif.Model.Url
import Verif.Spec.Url
import Verif.Proofs.Url
import Verif.Props.UrlProps
import Verif.Model.DamagedIndex
import Verif.Spec.DamagedIndex
import Verif.Proofs.DamagedIndex
import Verif.Props.DamagedIndexProps
import Verif.Props.ProgramProps
import Verif.Spec.Answered
import Verif.Props.AnsweredProps
import Verif.Model.Concurrent
import Verif.Spec.Concurrent
import Verif.Proofs.Concurrent
import Verif.Proofs.ConcurrentAsks
import Verif.Proofs.ConcurrentStart
import Verif.Proofs.ConcurrentXml
import Verif.Props.ConcurrentProps
import Verif.Spec.RoutePaths
import Verif.Proofs.RoutePaths
import Verif.Props.RoutePathsProps
import Verif.Model.Restart
import Verif.Spec.Restart
import Verif.Spec.Program
import Verif.Proofs.RestartSql
import Verif.Proofs.Restart
import Verif.Proofs.RestartOrder
import Verif.Props.RestartProps
import Verif.Model.Pool
import Verif.Spec.Pool
import Verif.Proofs.Pool
import Verif.Props.PoolProps
import Verif.Spec.Changed
import Verif.Proofs.WildcardHeader
import Verif.Proofs.Killed
import Verif.Proofs.Changed
import Verif.Props.ChangedProps
import Verif.Spec.Failing
import Verif.Proofs.Failing
import Verif.Proofs.Gap
import Verif.Props.FailingProps
import Verif.Proofs.Refused
import Verif.Proofs.RefusedStart
import Verif.Proofs.NeverBuilt
import Verif.Props.BuildableProps
import Verif.Model.CommandLine
import Verif.Spec.CommandLine
import Verif.Proofs.CommandLine
import Verif.Props.CommandLineProps
import Verif.Spec.AnyOrder
import Verif.Proofs.AnyOrder
import Verif.Props.AnyOrderProps
import Verif.Model.Closing
import Verif.Spec.Closing
import Verif.Proofs.Closing
import Verif.Props.ClosingProps
import Verif.Model.Progress
import Verif.Spec.Progress
import Verif.Props.ProgressProps
import Verif.Props.ParserLoopProps
import Verif.Props.CsvFirstRowProps
import Verif.Proofs.LiteralPaths
import Verif.Props.LiteralPathsProps
import Verif.Spec.Placeholders
import Verif.Proofs.Placeholders
import Verif.Props.PlaceholdersProps
import Verif.Model.XPath
import Verif.Spec.XPath
import Verif.Proofs.XPath
import Verif.Proofs.XPathText
import Verif.Props.XPathProps
import Verif.Spec.Added
import Verif.Proofs.Added
import Verif.Proofs.AddedStart
import Verif.Props.AddedProps
import Verif.Spec.Unindexed
import Verif.Proofs.Unindexed
import Verif.Proofs.UnindexedStart
import Verif.Props.UnindexedProps
import Verif.Spec.Reading
import Verif.Props.ReadingProps
import Verif.Spec.Explicit
import Verif.Proofs.Explicit
import Verif.Props.ExplicitProps
import Verif.Spec.Retold
import Verif.Spec.RetoldFiles
import Verif.Proofs.Retold
import Verif.Proofs.RetoldOutput
import Verif.Proofs.RetoldStart
import Verif.Props.RetoldProps
import Verif.Spec.OtherParameters
import Verif.Props.OtherParametersProps
import Verif.Props.MethodProps
import Verif.Proofs.Unambiguous
import Verif.Props.UnambiguousProps
import Verif.Props.SameBytesProps
import Verif.Proofs.Twins
import Verif.Spec.ClearRequest
import Verif.Props.SameResponseProps
