import Verif.Props.Unpack
import Verif.Props.NameOps
import Verif.Props.NameText
import Verif.Props.RRset
import Verif.Props.ParseRdata
import Verif.Props.Message
import Verif.Props.Heap
import Verif.Props.Format
import Verif.Props.Tables
import Verif.Props.Ubuf
import Verif.Props.Downcase
import Verif.Props.RdataText
import Verif.Props.MessageText
import Verif.Tests.Vectors
import Verif.Props.FromText
import Verif.Props.RoundTrip
import Verif.Props.File
import Verif.Props.ScanSafe
import Verif.Props.NameGrammar
import Verif.Props.StringGrammar
import Verif.Props.AddrGrammar
import Verif.Props.NumGrammar
import Verif.Props.ScanGrammar
import Verif.Props.RenderSafe
import Verif.Props.Base32Threads
import Verif.Props.TextHeap
import Verif.Props.TextStable
import Verif.Props.Pipeline
import Verif.Props.NameAny
import Verif.Props.Varint
import Verif.Props.Queue
import Verif.Props.QueueMutex
import Verif.Props.Crc
import Verif.Props.PtrHeap
import Verif.Props.IpArith
import Verif.Props.Lookup3
import Verif.Props.Fileset
import Verif.Props.HexDecode
import Verif.Props.Pcap
import Verif.Props.Tools
import Verif.Props.RoundTripExact
import Verif.Props.LengthWrap
import Verif.Props.StringReplace
import Verif.Props.ReadBytes
import Verif.Props.Rate
import Verif.Props.RateAny
import Verif.Props.ThreadNum
import Verif.Props.PrintString
import Verif.Props.PcapHandler
import Verif.Props.Registry
import Verif.Props.Octets
import Verif.Props.List
import Verif.Props.ToolDowncase
import Verif.Props.RbTree
import Verif.Props.Splay
import Verif.Props.Codes
import Verif.Props.Behind
import Verif.Props.Spooldir
import Verif.Props.Zonefile
import Verif.Props.Atomic
import Verif.Props.Getenv
import Verif.Props.Resources
import Verif.Props.TextSize
import Verif.Props.ParsedTextSize
import Verif.Props.MessageTextSize
import Verif.Props.SvcScan
import Verif.Props.ArgvCopy
import Verif.Props.ArgvChecks
import Verif.Props.ArgvSafe
import Verif.Props.ArgvLimits
import Verif.Props.ArgvMeaning
import Verif.Props.ArgvAccept
import Verif.Props.ArgvValues
import Verif.Props.ArgvEnv
import Verif.Props.Oom
import Verif.Props.OomGranted
import Verif.Props.OomText
import Verif.Props.OomLocal
import Verif.Props.OomTextLocal
import Verif.Props.ArgvBack
import Verif.Props.ArgvGlobal
import Verif.Props.ArgvCleanup
import Verif.Props.TextIdentity
import Verif.Props.ArgvUsage
import Verif.Props.ArgvDisplay
import Verif.Props.Exact
import Verif.Props.EdnsIdentity
import Verif.Props.ArgvTell
import Verif.Props.NameLaws
import Verif.Props.Version
import Verif.Props.PcapMain
import Verif.Props.ArgvExit
import Verif.Props.NameFaults
import Verif.Props.UnpackFaults
import Verif.Props.Faults
import Verif.Props.ScanFaults
import Verif.Spec.OpFaults
import Verif.Spec.DowncaseAny
import Verif.Props.OpFaults
import Verif.Props.DowncaseAny
import Verif.Spec.AnyText
import Verif.Props.AnyText
import Verif.Props.Truncate
import Verif.Props.RecordOrder
import Verif.Spec.History
import Verif.Props.History
import Verif.Spec.CaseAlike
import Verif.Props.CaseAlike
import Verif.Props.RateAdjusted
import Verif.Props.Stored
