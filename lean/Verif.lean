import Verif.Lcio.Access
import Verif.Lcio.AccessLemmas
import Verif.Lcio.Build
import Verif.Lcio.BuildLemmas
import Verif.Lcio.Closest
import Verif.Lcio.Collection
import Verif.Lcio.CollectionLemmas
import Verif.Lcio.Copies
import Verif.Lcio.CopyLemmas
import Verif.Lcio.CopyLemmas2
import Verif.Lcio.CopyLemmas3
import Verif.Lcio.CopyLemmas4
import Verif.Lcio.CopyLemmas5
import Verif.Lcio.Counts
import Verif.Lcio.CountsLemmas
import Verif.Lcio.CrashLemmas
import Verif.Lcio.CursorLemmas
import Verif.Lcio.DamageAccess
import Verif.Lcio.DamageCalls
import Verif.Lcio.DamageLemmas
import Verif.Lcio.DamageReader
import Verif.Lcio.DamageStream
import Verif.Lcio.DirectLemmas
import Verif.Lcio.Elements
import Verif.Lcio.Event
import Verif.Lcio.EventLemmas2
import Verif.Lcio.EventProofs
import Verif.Lcio.Ext
import Verif.Lcio.ExtLemmas
import Verif.Lcio.ExtendLemmas
import Verif.Lcio.FirstAccess
import Verif.Lcio.Fixed
import Verif.Lcio.FlatTyped
import Verif.Lcio.Float
import Verif.Lcio.FloatLemmas
import Verif.Lcio.FormatCollections
import Verif.Lcio.FormatEvents
import Verif.Lcio.FormatHeaders
import Verif.Lcio.FormatLemmas
import Verif.Lcio.FormatReads
import Verif.Lcio.FormatWrites
import Verif.Lcio.FullDisk
import Verif.Lcio.FullDiskClose
import Verif.Lcio.FullDiskLemmas
import Verif.Lcio.HeaderLemmas
import Verif.Lcio.Headers
import Verif.Lcio.History
import Verif.Lcio.Lazy
import Verif.Lcio.LazyLemmas
import Verif.Lcio.ListenLemmas
import Verif.Lcio.Listeners
import Verif.Lcio.Memory
import Verif.Lcio.MemoryLemmas
import Verif.Lcio.MtDisk
import Verif.Lcio.MtDiskLemmas
import Verif.Lcio.MtLemmas
import Verif.Lcio.MtLemmas2
import Verif.Lcio.MtWriter
import Verif.Lcio.NameList
import Verif.Lcio.ObjectLemmas
import Verif.Lcio.Objects
import Verif.Lcio.OrdMap
import Verif.Lcio.Params
import Verif.Lcio.ParamsLemmas
import Verif.Lcio.PlainLemmas
import Verif.Lcio.RandomAccess
import Verif.Lcio.Reader
import Verif.Lcio.ReaderLemmas
import Verif.Lcio.RecreateLemmas
import Verif.Lcio.Reopen
import Verif.Lcio.RestoreLemmas
import Verif.Lcio.RtRelations
import Verif.Lcio.RunEventLemmas
import Verif.Lcio.RunEventMap
import Verif.Lcio.SameLemmas
import Verif.Lcio.SessionLemmas
import Verif.Lcio.SetterLemmas
import Verif.Lcio.Setters
import Verif.Lcio.SioReader
import Verif.Lcio.SoundEvent
import Verif.Lcio.SoundLemmas
import Verif.Lcio.SoundReader
import Verif.Lcio.SummaryLemmas
import Verif.Lcio.Typed
import Verif.Lcio.Writer
import Verif.Lcio.WriterLemmas
import Verif.Lcio.WriterUse
import Verif.Lcio.WriterUseLemmas
import Verif.Props.Access
import Verif.Props.AddAccess
import Verif.Props.Anajob
import Verif.Props.Append
import Verif.Props.Bits
import Verif.Props.Blocks
import Verif.Props.Build
import Verif.Props.CellID
import Verif.Props.Charge
import Verif.Props.CheckElements
import Verif.Props.Closest
import Verif.Props.Copies
import Verif.Props.Copy
import Verif.Props.Counts
import Verif.Props.Crash
import Verif.Props.Damage
import Verif.Props.Device
import Verif.Props.Direct
import Verif.Props.Dump
import Verif.Props.DumpDetailed
import Verif.Props.DumpEvent
import Verif.Props.Elements
import Verif.Props.EventCases
import Verif.Props.Events
import Verif.Props.Events2
import Verif.Props.Ext
import Verif.Props.Extend
import Verif.Props.FileRecord
import Verif.Props.Files
import Verif.Props.Fixed
import Verif.Props.Flags
import Verif.Props.Format
import Verif.Props.Fortran
import Verif.Props.FortranData
import Verif.Props.FortranIo
import Verif.Props.FullDisk
import Verif.Props.Generations
import Verif.Props.Headers
import Verif.Props.HepEvt
import Verif.Props.Ild
import Verif.Props.Iterator
import Verif.Props.Lazy
import Verif.Props.LazyFiles
import Verif.Props.Listeners
import Verif.Props.Lsh
import Verif.Props.Memory
import Verif.Props.Merge
import Verif.Props.MergeDisk
import Verif.Props.MergeNames
import Verif.Props.Mt
import Verif.Props.MtDisk
import Verif.Props.NameList
import Verif.Props.Names
import Verif.Props.NavRefs
import Verif.Props.Navigator
import Verif.Props.Ownership
import Verif.Props.ParallelRead
import Verif.Props.ParamMap
import Verif.Props.Pid
import Verif.Props.Printing
import Verif.Props.ProcessFlag
import Verif.Props.RemoveLoop
import Verif.Props.Reopen
import Verif.Props.RtRelations
import Verif.Props.RunEvents
import Verif.Props.Scheduler
import Verif.Props.SessionCases
import Verif.Props.Sessions
import Verif.Props.Setters
import Verif.Props.SioDump
import Verif.Props.Skip
import Verif.Props.Sound
import Verif.Props.Spans
import Verif.Props.Split
import Verif.Props.SplitFile
import Verif.Props.SplitMerge
import Verif.Props.Stages
import Verif.Props.StdHep
import Verif.Props.StdHepJob
import Verif.Props.StdHepNew
import Verif.Props.Time
import Verif.Props.TrackerConf
import Verif.Props.Unclosed
import Verif.Props.Warning
import Verif.Props.WriterUse
import Verif.Props.Xdr
import Verif.Sio.Basic
import Verif.Sio.BasicLemmas
import Verif.Sio.BlockLemmas
import Verif.Sio.Device
import Verif.Sio.DeviceLemmas
import Verif.Sio.EventLemmas
import Verif.Sio.FileLemmas
import Verif.Sio.FlatLemmas
import Verif.Sio.ReadLemmas
import Verif.Sio.Record
import Verif.Sio.RecordLemmas
import Verif.Sio.RelocLemmas
import Verif.Sio.SameBytes
import Verif.Sio.Span
import Verif.Sio.SpanLemmas
import Verif.Sio.Stream
import Verif.Sio.StreamLemmas
import Verif.Sio.TypedLemmas
import Verif.Spec.Access
import Verif.Spec.Anajob
import Verif.Spec.Bits
import Verif.Spec.Build
import Verif.Spec.Calendar
import Verif.Spec.Calls
import Verif.Spec.Charge
import Verif.Spec.CheckElements
import Verif.Spec.Closest
import Verif.Spec.Copies
import Verif.Spec.Copy
import Verif.Spec.Crash
import Verif.Spec.Damage
import Verif.Spec.Decide
import Verif.Spec.Elements
import Verif.Spec.Event
import Verif.Spec.Ext
import Verif.Spec.Extend
import Verif.Spec.File
import Verif.Spec.Fixed
import Verif.Spec.Flags
import Verif.Spec.Flat
import Verif.Spec.Format
import Verif.Spec.FormatData
import Verif.Spec.FormatObjects
import Verif.Spec.Fortran
import Verif.Spec.FortranData
import Verif.Spec.Generations
import Verif.Spec.HepEvt
import Verif.Spec.Ild
import Verif.Spec.Items
import Verif.Spec.Lazy
import Verif.Spec.Lsh
import Verif.Spec.Match
import Verif.Spec.Memory
import Verif.Spec.Merge
import Verif.Spec.MergeDisk
import Verif.Spec.MergeNames
import Verif.Spec.Mt
import Verif.Spec.NavRefs
import Verif.Spec.Navigator
import Verif.Spec.Objects
import Verif.Spec.ParamMap
import Verif.Spec.Pid
import Verif.Spec.Printable
import Verif.Spec.ProcessFlag
import Verif.Spec.Record
import Verif.Spec.RunEvents
import Verif.Spec.Sessions
import Verif.Spec.Setters
import Verif.Spec.Sound
import Verif.Spec.Split
import Verif.Spec.StdHep
import Verif.Spec.StdHepJob
import Verif.Spec.StdHepNew
import Verif.Spec.Store
import Verif.Spec.TrackerConf
import Verif.Spec.Views
import Verif.Spec.Warning
import Verif.Spec.Wire
import Verif.Spec.WriterUse
import Verif.Spec.Xdr
import Verif.Util.AddAccess
import Verif.Util.AddAccessLemmas
import Verif.Util.Anajob
import Verif.Util.BitField
import Verif.Util.BitLemmas
import Verif.Util.CellID
import Verif.Util.CheckElements
import Verif.Util.Dump
import Verif.Util.DumpDetailed
import Verif.Util.DumpDetailedLemmas
import Verif.Util.DumpEvent
import Verif.Util.EventCounter
import Verif.Util.Flags
import Verif.Util.Fortran
import Verif.Util.FortranData
import Verif.Util.FortranIo
import Verif.Util.FortranLemmas
import Verif.Util.HepEvt
import Verif.Util.Ild
import Verif.Util.Iterator
import Verif.Util.Lsh
import Verif.Util.LshLemmas
import Verif.Util.Merge
import Verif.Util.MergeDisk
import Verif.Util.MergeNames
import Verif.Util.NavRefs
import Verif.Util.NavRefsLemmas
import Verif.Util.Navigator
import Verif.Util.NavigatorLemmas
import Verif.Util.ParallelRead
import Verif.Util.ParamMap
import Verif.Util.Pid
import Verif.Util.PidLemmas
import Verif.Util.Printing
import Verif.Util.PrintingLemmas
import Verif.Util.PrintingTidy
import Verif.Util.ProcessFlag
import Verif.Util.ProcessFlagLemmas
import Verif.Util.RemoveLoop
import Verif.Util.Scheduler
import Verif.Util.SioDump
import Verif.Util.SioDumpLemmas
import Verif.Util.Split
import Verif.Util.SplitFile
import Verif.Util.SplitLemmas
import Verif.Util.StdHep
import Verif.Util.StdHepJob
import Verif.Util.StdHepJobLemmas
import Verif.Util.StdHepLemmas
import Verif.Util.StdHepLemmas2
import Verif.Util.StdHepLemmas3
import Verif.Util.StdHepLemmas4
import Verif.Util.StdHepLemmas5
import Verif.Util.StdHepNew
import Verif.Util.StdHepNewLemmas
import Verif.Util.Text
import Verif.Util.TextLemmas
import Verif.Util.Time
import Verif.Util.TimeLemmas
import Verif.Util.TrackerConf
import Verif.Util.TypeName
import Verif.Util.Warning
import Verif.Util.Xdr
import Verif.Util.XdrLemmas
