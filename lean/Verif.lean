import Verif.Model.Registry
import Verif.Spec.Ranges
import Verif.Spec.RegistryView
import Verif.Lemmas.Registry
import Verif.Props.Registry
import Verif.Spec.Trace
import Verif.Model.Kernel
import Verif.Spec.KernelView
import Verif.Model.System
import Verif.Lemmas.Kernel
import Verif.Lemmas.SystemView
import Verif.Lemmas.SystemSteps
import Verif.Lemmas.SystemInv
import Verif.Lemmas.SystemShared
import Verif.Lemmas.SystemPhantom
import Verif.Lemmas.SystemEvents
import Verif.Lemmas.SystemWait
import Verif.Lemmas.SystemLift
import Verif.Lemmas.Runs
import Verif.Lemmas.SystemComplete
import Verif.Props.System
import Verif.Props.SystemMore
import Verif.Model.Dwords
import Verif.Props.Dwords
import Verif.Model.Options
import Verif.Props.Options
import Verif.Model.LockCall
import Verif.Props.LockCall
import Verif.Model.PyM
import Verif.Model.RawIO
import Verif.Spec.Bytes
import Verif.Lemmas.RawIO
import Verif.Props.RawIO
import Verif.Model.Buffered
import Verif.Spec.Stream
import Verif.Lemmas.Buffered
import Verif.Lemmas.BufferedRefine
import Verif.Props.Buffered
import Verif.Props.BufferedMore
import Verif.Lemmas.BufferedInto
import Verif.Props.BufferedLines
import Verif.Model.Modes
import Verif.Props.Modes
import Verif.Model.Open
import Verif.Lemmas.Open
import Verif.Props.Open
import Verif.Props.OpenMore
import Verif.Props.OpenLayers
import Verif.Model.Patched
import Verif.Props.Patched
import Verif.Model.Wrapper
import Verif.Props.Wrapper
import Verif.Model.Inodes
import Verif.Props.Inodes
import Verif.Spec.Device
import Verif.Lemmas.Along
import Verif.Lemmas.Device
import Verif.Props.Sync
import Verif.Model.Text
import Verif.Model.Utilities
import Verif.Lemmas.TextAlong
import Verif.Lemmas.Utilities
import Verif.Lemmas.UtilitiesRead
import Verif.Lemmas.UtilitiesReturn
import Verif.Spec.Codecs
import Verif.Props.Utilities
import Verif.Props.UtilitiesText
import Verif.Props.TextMore
import Verif.Spec.Decoders
import Verif.Spec.TextFile
import Verif.Lemmas.Decoders
import Verif.Lemmas.BufferedReading
import Verif.Lemmas.TextLines
import Verif.Lemmas.TextRead
import Verif.Lemmas.TextReadline
import Verif.Lemmas.TextTell
import Verif.Lemmas.TextHistory
import Verif.Props.TextReading
import Verif.Props.UtilitiesRelease
import Verif.Spec.TextSink
import Verif.Lemmas.TextSteps
import Verif.Lemmas.TextWrite
import Verif.Props.TextWriting
import Verif.Spec.TextDoc
import Verif.Lemmas.TextDoc
import Verif.Props.TextBoth
import Verif.Props.UtilitiesMore
import Verif.Props.Locking
import Verif.Lemmas.Reads
import Verif.Props.Settled
import Verif.Props.LineBuffering
import Verif.Model.Together
import Verif.Spec.Together
import Verif.Lemmas.Together
import Verif.Props.Together
import Verif.Props.OpenLocks
import Verif.Model.WinSystem
import Verif.Lemmas.WinSystem
import Verif.Lemmas.WinSteps
import Verif.Lemmas.WinWorld
import Verif.Lemmas.WinRuns
import Verif.Props.WinSystem
import Verif.Lemmas.WinAccounts
import Verif.Lemmas.WinAccountSteps
import Verif.Lemmas.WinAccountWorld
import Verif.Spec.Handles
import Verif.Lemmas.WinHandles
import Verif.Lemmas.WinLive
import Verif.Props.WinAccounts
import Verif.Props.WinEffects
import Verif.Model.WinOpen
import Verif.Lemmas.WinOpen
import Verif.Props.WinOpen
import Verif.Props.WinOpenMore
import Verif.Lemmas.WinWrap
import Verif.Props.WinWrap
import Verif.Spec.Appending
import Verif.Props.Appending
import Verif.Lemmas.Ported
import Verif.Lemmas.PortedRuns
import Verif.Lemmas.PortedText
import Verif.Props.Ported
import Verif.Model.WinAppend
import Verif.Spec.WinAppend
import Verif.Props.WinAppend
import Verif.Model.WinInfo
import Verif.Props.WinInfo
import Verif.Props.Wrapping
import Verif.Spec.Reading
import Verif.Lemmas.Smooth
import Verif.Props.Reading
import Verif.Model.Native
import Verif.Spec.Failures
import Verif.Lemmas.Failures
import Verif.Props.Failures
import Verif.Spec.TextCalls
import Verif.Lemmas.TextSmooth
import Verif.Props.TextAnswers
import Verif.Spec.TextPosting
import Verif.Props.TextNonBlocking
import Verif.Model.Forking
import Verif.Props.Progress
import Verif.Model.Ending
import Verif.Props.Ending
import Verif.Model.RawLines
import Verif.Props.RawLines
import Verif.Lemmas.TextResume
import Verif.Props.TextResume
import Verif.Model.Forward
import Verif.Props.Forward
import Verif.Model.TextTogether
import Verif.Spec.TextTogether
import Verif.Lemmas.TextTogether
import Verif.Props.TextTogether
import Verif.Props.WrapShared
import Verif.Spec.SyncDevice
import Verif.Props.Synchronized
import Verif.Model.Concurrent
import Verif.Spec.Concurrent
import Verif.Lemmas.ConcurrentSystem
import Verif.Lemmas.ConcurrentHeld
import Verif.Lemmas.ConcurrentStale
import Verif.Lemmas.ConcurrentReads
import Verif.Lemmas.ConcurrentAlone
import Verif.Lemmas.ConcurrentInv
import Verif.Props.Concurrent
import Verif.Spec.Records
import Verif.Lemmas.Stale
import Verif.Lemmas.Records
import Verif.Lemmas.RecordSteps
import Verif.Props.Records
import Verif.Model.LockRange
import Verif.Props.LockRange
import Verif.Props.Opener
import Verif.Props.WinTogether
import Verif.Props.Reconfigure
import Verif.Props.Crew
import Verif.Props.Forked
import Verif.Props.Detach
import Verif.Props.WinTextTogether
import Verif.Model.TextDetach
import Verif.Props.TextDetach
import Verif.Spec.AppendStream
import Verif.Lemmas.AppendRefine
import Verif.Props.AppendStream
import Verif.Spec.AppendText
import Verif.Lemmas.AppendText
import Verif.Props.AppendText
import Verif.Spec.AppendTogether
import Verif.Spec.WinAppendTogether
import Verif.Lemmas.AppendTogether
import Verif.Lemmas.PortedAppend
import Verif.Props.AppendTogether
import Verif.Props.WinAppendTogether
import Verif.Spec.AppendTexts
import Verif.Lemmas.AppendTexts
import Verif.Props.AppendTexts
import Verif.Spec.WinAppendTexts
import Verif.Lemmas.PortedAppendTexts
import Verif.Lemmas.WaitingTexts
import Verif.Props.WinAppendTexts
import Verif.Spec.TextLocks
import Verif.Props.TextLocks
import Verif.Lemmas.PortedTruncate
import Verif.Spec.Rotation
import Verif.Props.Rotation
import Verif.Spec.WinTextCut
import Verif.Lemmas.PortedTextCut
import Verif.Props.WinTextCut
import Verif.Spec.Following
import Verif.Props.Following
import Verif.Spec.Updating
import Verif.Props.Updating
import Verif.Spec.TextUpdating
import Verif.Props.TextUpdating
import Verif.Spec.WinTextUpdating
import Verif.Props.WinTextUpdating
import Verif.Lemmas.VacantTexts
import Verif.Props.WinTextWaiting
import Verif.Props.WinTextLogs
