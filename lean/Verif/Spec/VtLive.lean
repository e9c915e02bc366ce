import Verif.Spec.Live
import Verif.Spec.Prepare
import Verif.Spec.Vt

/-!
# A screen on an xterm that reads bytes (C69, C70)

As `Spec/Live.lean`, but the terminal is one that reads the bytes the device has received.
-/

namespace Mortal.Spec

/-- The window has changed its size. The cells, and where the cursor is, may be anything; the attributes
in effect, which buffer is in use, what was saved, the modes and a sequence that has been begun stay. -/
structure Vt.Resized (v v' : Vt) : Prop where
  size : GoodSize v'.t.size
  cur : ∃ p, v'.t.cur = some p ∧ InBounds p v'.t.size
  last : ∀ p, v'.t.last = some p → InBounds p v'.t.size
  attrs : v'.t.attrs = v.t.attrs
  bce : v'.t.bce = v.t.bce
  alt : v'.alt = v.alt
  saved : v'.saved = v.saved
  ps : v'.ps = v.ps
  visible : v'.visible = v.visible
  keypad : v'.keypad = v.keypad
  mode : v'.mode = v.mode

/-- The terminal reads bytes, and its window may change its size between any two of them. -/
inductive Vt.Reads (u : UEnv) (crlf : Bool) : Vt → Bytes → Vt → Prop
  | done (v : Vt) : Reads u crlf v [] v
  | byte {v v' : Vt} {b : UInt8} {bs : Bytes} : Reads u crlf (v.byte u crlf b) bs v' →
      Reads u crlf v (b :: bs) v'
  | resized {v v1 v' : Vt} {bs : Bytes} : v.Resized v1 → Reads u crlf v1 bs v' → Reads u crlf v bs v'

/-- What the device received during the call that led from `s` to `s'`. -/
def newBytes (s s' : US) : Bytes := s'.w.dev.drop s.w.dev.length

/-- What may have become of the terminal by the end of that call. -/
def Vt.Looks (u : UEnv) (crlf : Bool) (v : Vt) (s s' : US) (v' : Vt) : Prop :=
  (SizeKept s s' → v' = v.feed u crlf (newBytes s s')) ∧
  (¬ SizeKept s s' → Vt.Reads u crlf v (newBytes s s') v' ∧ v'.t.size = s'.size)

/-- A screen's data, the system, and the terminal. -/
structure VLive where
  d : SData
  s : US
  v : Vt

/-- A history (compare `LiveRun`). -/
inductive VRun (u : UEnv) (crlf : Bool) (env : REnv) : VLive → List LiveEv → VLive → Prop
  | done (x : VLive) : VRun u crlf env x [] x
  | call {x y : VLive} {op : ScrOp} {r : URet} {d : SData} {s : US} {v : Vt} {es : List LiveEv} :
      op.run u env x.d x.s = some (r, d, s) → x.v.Looks u crlf x.s s v →
      VRun u crlf env ⟨d, s, v⟩ es y →
      VRun u crlf env x (.call op r (decide (SizeKept x.s s)) :: es) y
  | window {x y : VLive} {z : Size} {v : Vt} {es : List LiveEv} :
      ScreenSize z → v.t.size = z → x.v.Resized v →
      VRun u crlf env ⟨x.d, { x.s with size := z }, v⟩ es y → VRun u crlf env x (.window z :: es) y

/-- A terminal was used through `ops` before, and its output has been read by an xterm, which shows
anything in its normal buffer. -/
structure VUsed (s : US) (v : Vt) : Prop where
  before : ∃ (ops : List WOp) (os : List WriteRes), NoShortWrites os ∧
    runW xtermDB ops (WS.new os) = some s.w
  read : s.w.pending = []
  ready : v.Ready
  size : v.t.size = s.size
  attrs : v.t.attrs = devAttrs s.w.log
  alt : v.alt = false

/-- The terminal's modes are those: the keypad sends application sequences, and so do the cursor keys
(mode 1); buttons are reported (1002) in the long form (1006); all motion is reported (1003). -/
structure Vt.Modes (v : Vt) (d : DevModes) : Prop where
  keypad : v.keypad = d.keypad
  keys : v.mode 1 = d.keypad
  form : v.mode 1006 = d.mouse
  buttons : v.mode 1002 = d.mouse
  motion : v.mode 1003 = d.motion

/-- Through all these events the window kept its size. -/
def Steady (es : List LiveEv) : Prop := ∀ e ∈ es, ∃ op r, e = .call op r true

end Mortal.Spec
