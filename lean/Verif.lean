import Verif.Props.Accepted
import Verif.Props.Amending
import Verif.Props.Archive
import Verif.Props.ArchiveFrame
import Verif.Props.ArchiveSuccess
import Verif.Props.Blob
import Verif.Props.Cache
import Verif.Props.CachedRead
import Verif.Props.Caching
import Verif.Props.Calls
import Verif.Props.Checksum
import Verif.Props.Close
import Verif.Props.Cluster
import Verif.Props.Clusters
import Verif.Props.Compression
import Verif.Props.CompressionOptions
import Verif.Props.Counter
import Verif.Props.CounterOpen
import Verif.Props.Counting
import Verif.Props.Crash
import Verif.Props.Creator
import Verif.Props.EditSuccess
import Verif.Props.Embedded
import Verif.Props.Entry
import Verif.Props.EntryRemove
import Verif.Props.Header
import Verif.Props.IndexSearch
import Verif.Props.Interrupted
import Verif.Props.Ioutil
import Verif.Props.Item
import Verif.Props.IterByCluster
import Verif.Props.IterRange
import Verif.Props.Layout
import Verif.Props.Lookup
import Verif.Props.LowRam
import Verif.Props.MainKept
import Verif.Props.MainLast
import Verif.Props.MainPage
import Verif.Props.MainSaved
import Verif.Props.Metadata
import Verif.Props.MimeTypeList
import Verif.Props.Mimetypes
import Verif.Props.ModCluster
import Verif.Props.Modifiable
import Verif.Props.Open
import Verif.Props.OperationBuffer
import Verif.Props.PointerList
import Verif.Props.Processors
import Verif.Props.Reading
import Verif.Props.Redirecting
import Verif.Props.Redirects
import Verif.Props.Refused
import Verif.Props.Removing
import Verif.Props.Renaming
import Verif.Props.Resolve
import Verif.Props.Search
import Verif.Props.SearchIndex
import Verif.Props.SetContents
import Verif.Props.SetMetadata
import Verif.Props.SpaceAllocator
import Verif.Props.Strategy
import Verif.Props.Threads
import Verif.Props.Told
import Verif.Props.Torn
import Verif.Props.Total
import Verif.Props.Translated
import Verif.Props.Translator
