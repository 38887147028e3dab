import Verif.Model.AbstractIO
import Verif.Model.Append
import Verif.Model.Args
import Verif.Model.Checksums
import Verif.Model.Cli
import Verif.Model.CliShared
import Verif.Model.Concurrent
import Verif.Model.Disk
import Verif.Model.EntryPoints
import Verif.Model.Env
import Verif.Model.FileIO
import Verif.Model.Float
import Verif.Model.Headers
import Verif.Model.Json
import Verif.Model.Log
import Verif.Model.MemoryIO
import Verif.Model.Numpy
import Verif.Model.NumpyChanging
import Verif.Model.NumpyDisk
import Verif.Model.NumpyShared
import Verif.Model.Objects
import Verif.Model.Options
import Verif.Model.Pretty
import Verif.Model.Prim
import Verif.Model.Repr
import Verif.Model.Shared
import Verif.Model.Streams
import Verif.Spec.Accept
import Verif.Spec.Append
import Verif.Spec.Archive
import Verif.Spec.Args
import Verif.Spec.ArrayMetadata
import Verif.Spec.Bytes
import Verif.Spec.Canonical
import Verif.Spec.Concurrent
import Verif.Spec.Container
import Verif.Spec.Crash
import Verif.Spec.File
import Verif.Spec.Float
import Verif.Spec.Format
import Verif.Spec.Gaps
import Verif.Spec.Growing
import Verif.Spec.Header
import Verif.Spec.History
import Verif.Spec.Json
import Verif.Spec.JsonNumber
import Verif.Spec.JsonText
import Verif.Spec.Layout
import Verif.Spec.Literal
import Verif.Spec.Mapping
import Verif.Spec.Numpy
import Verif.Spec.Objects
import Verif.Spec.Observe
import Verif.Spec.Options
import Verif.Spec.Pieces
import Verif.Spec.Protocol
import Verif.Spec.PyCall
import Verif.Spec.Race
import Verif.Spec.Refused
import Verif.Spec.Replace
import Verif.Spec.Session
import Verif.Spec.Settings
import Verif.Spec.Shared
import Verif.Spec.Text
import Verif.Spec.Typesize
import Verif.Spec.Unreadable
import Verif.Spec.Updates
import Verif.Spec.Verified
import Verif.Lemmas.Alike
import Verif.Lemmas.Append
import Verif.Lemmas.AppendFacts
import Verif.Lemmas.AppendReads
import Verif.Lemmas.Checksums
import Verif.Lemmas.Concurrent
import Verif.Lemmas.Crash
import Verif.Lemmas.Damage
import Verif.Lemmas.Disk
import Verif.Lemmas.Early
import Verif.Lemmas.Float
import Verif.Lemmas.Growing
import Verif.Lemmas.Headers
import Verif.Lemmas.InMemory
import Verif.Lemmas.JsonNumber
import Verif.Lemmas.JsonText
import Verif.Lemmas.LE
import Verif.Lemmas.Literal
import Verif.Lemmas.Locate
import Verif.Lemmas.Logged
import Verif.Lemmas.MetaHeader
import Verif.Lemmas.Numpy
import Verif.Lemmas.Options
import Verif.Lemmas.Pack
import Verif.Lemmas.PackFile
import Verif.Lemmas.PackTotal
import Verif.Lemmas.Prim
import Verif.Lemmas.Race
import Verif.Lemmas.Raises
import Verif.Lemmas.ReadOnly
import Verif.Lemmas.Reader
import Verif.Lemmas.Refused
import Verif.Lemmas.Repr
import Verif.Lemmas.Rewrite
import Verif.Lemmas.Shared
import Verif.Lemmas.Streams
import Verif.Lemmas.Text
import Verif.Lemmas.Writer
import Verif.Props.Append
import Verif.Props.AppendAgain
import Verif.Props.AppendCrash
import Verif.Props.AppendReads
import Verif.Props.AppendTorn
import Verif.Props.Archive
import Verif.Props.Args
import Verif.Props.Arguments
import Verif.Props.Buffers
import Verif.Props.Burst
import Verif.Props.Canonical
import Verif.Props.Checksums
import Verif.Props.Cli
import Verif.Props.CliAppend
import Verif.Props.CliShared
import Verif.Props.Codecs
import Verif.Props.Concurrent
import Verif.Props.Container
import Verif.Props.Crash
import Verif.Props.Crc
import Verif.Props.Damage
import Verif.Props.Defaults
import Verif.Props.Disk
import Verif.Props.DiskInput
import Verif.Props.DtypeText
import Verif.Props.Early
import Verif.Props.FileSizes
import Verif.Props.Foreign
import Verif.Props.Growing
import Verif.Props.Headers
import Verif.Props.History
import Verif.Props.InMemoryUpdate
import Verif.Props.Info
import Verif.Props.Json
import Verif.Props.JsonText
import Verif.Props.JsonWhole
import Verif.Props.Log
import Verif.Props.ManyRewrites
import Verif.Props.Mapping
import Verif.Props.MemoryIO
import Verif.Props.MemorySizes
import Verif.Props.MetaHeaderStrict
import Verif.Props.Metadata
import Verif.Props.NullMetadata
import Verif.Props.NumberText
import Verif.Props.Numpy
import Verif.Props.NumpyAppend
import Verif.Props.NumpyChanging
import Verif.Props.NumpyConv
import Verif.Props.NumpyDisk
import Verif.Props.NumpyExact
import Verif.Props.NumpyFiles
import Verif.Props.NumpyGaps
import Verif.Props.NumpyLayout
import Verif.Props.NumpyOrder
import Verif.Props.NumpyShared
import Verif.Props.Options
import Verif.Props.OutputReuse
import Verif.Props.Pretty
import Verif.Props.PrettySize
import Verif.Props.Protocol
import Verif.Props.PyCall
import Verif.Props.Race
import Verif.Props.RaceMixed
import Verif.Props.Raises
import Verif.Props.Refused
import Verif.Props.Replace
import Verif.Props.Retry
import Verif.Props.Rewrite
import Verif.Props.RewriteCrash
import Verif.Props.RewriteRetry
import Verif.Props.RoundTrip
import Verif.Props.SameFile
import Verif.Props.Session
import Verif.Props.Shared
import Verif.Props.SharedRewrite
import Verif.Props.SinkReuse
import Verif.Props.SourceReuse
import Verif.Props.Space
import Verif.Props.Streams
import Verif.Props.Trailing
import Verif.Props.Typesize
import Verif.Props.UnknownChunks
import Verif.Props.Unreadable
import Verif.Props.Updates
import Verif.Props.Verbosity
import Verif.Props.Verified
import Verif.Examples.JsonEnv
import Verif.Examples.Numpy
import Verif.Examples.RepoTests
import Verif.Examples.Toy
