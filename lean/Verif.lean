import Verif.Lemmas.Api
import Verif.Lemmas.Buffer
import Verif.Lemmas.BufferAttrs
import Verif.Lemmas.BufferBack
import Verif.Lemmas.BufferText
import Verif.Lemmas.BufferWide
import Verif.Lemmas.CallSteps
import Verif.Lemmas.Content
import Verif.Lemmas.Direct
import Verif.Lemmas.DirectWin
import Verif.Lemmas.DrawPanic
import Verif.Lemmas.Fds
import Verif.Lemmas.Flushed
import Verif.Lemmas.HowFar
import Verif.Lemmas.Input
import Verif.Lemmas.InputTable
import Verif.Lemmas.Ledger
import Verif.Lemmas.LedgerLost
import Verif.Lemmas.LiveQuiet
import Verif.Lemmas.LiveRun
import Verif.Lemmas.LiveScr
import Verif.Lemmas.LiveSmooth
import Verif.Lemmas.LiveTerm
import Verif.Lemmas.LiveWideDec
import Verif.Lemmas.Locks
import Verif.Lemmas.LocksHeld
import Verif.Lemmas.LocksWriter
import Verif.Lemmas.Macros
import Verif.Lemmas.MacrosApi
import Verif.Lemmas.Pieces
import Verif.Lemmas.Portable
import Verif.Lemmas.Prepare
import Verif.Lemmas.ScrInput
import Verif.Lemmas.Screen
import Verif.Lemmas.ScreenResize
import Verif.Lemmas.ScreenSafe
import Verif.Lemmas.ScreenSession
import Verif.Lemmas.ScreenTexts
import Verif.Lemmas.SelfWait
import Verif.Lemmas.Sending
import Verif.Lemmas.SequenceMap
import Verif.Lemmas.SequencesMut
import Verif.Lemmas.Serial
import Verif.Lemmas.Session
import Verif.Lemmas.SessionRun
import Verif.Lemmas.Several
import Verif.Lemmas.SignalSet
import Verif.Lemmas.Signals
import Verif.Lemmas.SizeKnown
import Verif.Lemmas.SizeUnknown
import Verif.Lemmas.Stale
import Verif.Lemmas.Succeed
import Verif.Lemmas.Term
import Verif.Lemmas.TextRef
import Verif.Lemmas.Turns
import Verif.Lemmas.Typed
import Verif.Lemmas.Unix
import Verif.Lemmas.Unwind
import Verif.Lemmas.Utf8
import Verif.Lemmas.Vt
import Verif.Lemmas.VtClose
import Verif.Lemmas.VtCmd
import Verif.Lemmas.VtInput
import Verif.Lemmas.VtLive
import Verif.Lemmas.VtModes
import Verif.Lemmas.VtMods
import Verif.Lemmas.VtOpen
import Verif.Lemmas.VtReads
import Verif.Lemmas.VtSane
import Verif.Lemmas.VtStep
import Verif.Lemmas.VtTame
import Verif.Lemmas.Win
import Verif.Lemmas.WinAgain
import Verif.Lemmas.WinAttr
import Verif.Lemmas.WinCalls
import Verif.Lemmas.WinCheck
import Verif.Lemmas.WinCommands
import Verif.Lemmas.WinErase
import Verif.Lemmas.WinFail
import Verif.Lemmas.WinHandles
import Verif.Lemmas.WinHandlesEnds
import Verif.Lemmas.WinHandlesLife
import Verif.Lemmas.WinLive
import Verif.Lemmas.WinLiveCheck
import Verif.Lemmas.WinLocks
import Verif.Lemmas.WinNoPanic
import Verif.Lemmas.WinOnly
import Verif.Lemmas.WinPure
import Verif.Lemmas.WinRead
import Verif.Lemmas.WinRefused
import Verif.Lemmas.WinSession
import Verif.Lemmas.WinSeveral
import Verif.Lemmas.WinShow
import Verif.Lemmas.WinShowRun
import Verif.Lemmas.WinSignal
import Verif.Lemmas.WinStale
import Verif.Lemmas.WinText
import Verif.Lemmas.WinTotal
import Verif.Lemmas.WinUser
import Verif.Lemmas.WinUserActs
import Verif.Lemmas.WinUserScreen
import Verif.Lemmas.Writer
import Verif.Lemmas.WriterBytes
import Verif.Model.Api
import Verif.Model.Buffer
import Verif.Model.Fds
import Verif.Model.Input
import Verif.Model.Locks
import Verif.Model.Macros
import Verif.Model.Screen
import Verif.Model.ScreenUnix
import Verif.Model.SequenceMap
import Verif.Model.Several
import Verif.Model.SignalSet
import Verif.Model.Theme
import Verif.Model.Timeout
import Verif.Model.Types
import Verif.Model.Unix
import Verif.Model.Unwind
import Verif.Model.Utf8
import Verif.Model.Util
import Verif.Model.Win
import Verif.Model.WinLocks
import Verif.Model.WinPure
import Verif.Model.WinScreen
import Verif.Model.WinSeveral
import Verif.Model.Writer
import Verif.Props.Api
import Verif.Props.BufferAttrs
import Verif.Props.BufferCut
import Verif.Props.BufferGrid
import Verif.Props.BufferOps
import Verif.Props.BufferWide
import Verif.Props.CallSteps
import Verif.Props.Cursor
import Verif.Props.Direct
import Verif.Props.DirectWin
import Verif.Props.DrawPanic
import Verif.Props.Exact
import Verif.Props.Fds
import Verif.Props.Flushed
import Verif.Props.HowFar
import Verif.Props.Input
import Verif.Props.Ledger
import Verif.Props.Live
import Verif.Props.Locks
import Verif.Props.Macros
import Verif.Props.Pieces
import Verif.Props.Portable
import Verif.Props.PortableInput
import Verif.Props.Prepare
import Verif.Props.Screen
import Verif.Props.ScreenGuard
import Verif.Props.ScreenSession
import Verif.Props.SelfWait
import Verif.Props.Sending
import Verif.Props.SequenceMap
import Verif.Props.SequencesMut
import Verif.Props.Serial
import Verif.Props.Several
import Verif.Props.SignalFate
import Verif.Props.SignalSet
import Verif.Props.Signals
import Verif.Props.SizeKnown
import Verif.Props.Stale
import Verif.Props.Succeed
import Verif.Props.TextRef
import Verif.Props.Theme
import Verif.Props.Timeout
import Verif.Props.Turns
import Verif.Props.Typed
import Verif.Props.TypedWide
import Verif.Props.Unwind
import Verif.Props.Util
import Verif.Props.Vt
import Verif.Props.VtClose
import Verif.Props.VtInput
import Verif.Props.VtLive
import Verif.Props.VtMods
import Verif.Props.WideExact
import Verif.Props.WinAttr
import Verif.Props.WinCases
import Verif.Props.WinClear
import Verif.Props.WinDrop
import Verif.Props.WinErase
import Verif.Props.WinFail
import Verif.Props.WinHandles
import Verif.Props.WinKeys
import Verif.Props.WinLive
import Verif.Props.WinLocks
import Verif.Props.WinMode
import Verif.Props.WinOnly
import Verif.Props.WinOpening
import Verif.Props.WinPure
import Verif.Props.WinRefused
import Verif.Props.WinScreen
import Verif.Props.WinSession
import Verif.Props.WinSeveral
import Verif.Props.WinShow
import Verif.Props.WinSignal
import Verif.Props.WinStale
import Verif.Props.WinText
import Verif.Props.WinUser
import Verif.Props.Writer
import Verif.Spec.Api
import Verif.Spec.Buffer
import Verif.Spec.BufferOps
import Verif.Spec.CallSteps
import Verif.Spec.Console
import Verif.Spec.Cursor
import Verif.Spec.Direct
import Verif.Spec.DrawPanic
import Verif.Spec.Exact
import Verif.Spec.Fds
import Verif.Spec.HowFar
import Verif.Spec.Input
import Verif.Spec.Ledger
import Verif.Spec.Live
import Verif.Spec.LiveWide
import Verif.Spec.Locks
import Verif.Spec.Macros
import Verif.Spec.Pieces
import Verif.Spec.Portable
import Verif.Spec.PortableInput
import Verif.Spec.Prepare
import Verif.Spec.Screen
import Verif.Spec.ScreenSession
import Verif.Spec.Sending
import Verif.Spec.SequenceMap
import Verif.Spec.SequencesMut
import Verif.Spec.Serial
import Verif.Spec.Several
import Verif.Spec.SignalFate
import Verif.Spec.SignalSet
import Verif.Spec.Signals
import Verif.Spec.SizeKnown
import Verif.Spec.Stale
import Verif.Spec.Succeed
import Verif.Spec.TextRef
import Verif.Spec.Theme
import Verif.Spec.Timeout
import Verif.Spec.Turns
import Verif.Spec.Typed
import Verif.Spec.Unix
import Verif.Spec.Unwind
import Verif.Spec.Util
import Verif.Spec.Vt
import Verif.Spec.VtInput
import Verif.Spec.VtLive
import Verif.Spec.VtMods
import Verif.Spec.Win
import Verif.Spec.WinAttr
import Verif.Spec.WinDrop
import Verif.Spec.WinErase
import Verif.Spec.WinFail
import Verif.Spec.WinHandles
import Verif.Spec.WinKeys
import Verif.Spec.WinLive
import Verif.Spec.WinMode
import Verif.Spec.WinOnly
import Verif.Spec.WinRefused
import Verif.Spec.WinSession
import Verif.Spec.WinSeveral
import Verif.Spec.WinShow
import Verif.Spec.WinSignal
import Verif.Spec.WinStale
import Verif.Spec.WinText
import Verif.Spec.WinUser
import Verif.Spec.WinUserScreen
import Verif.Spec.Writer
