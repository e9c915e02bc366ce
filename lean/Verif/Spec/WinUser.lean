import Verif.Spec.WinSignal
import Verif.Spec.VtInput
import Verif.Spec.Win

/-!
# What a console puts into its input queue when its user does something

The counterpart of `Spec/VtInput.lean`. What is put there depends on the input mode: bit 0 has Ctrl-C
handled by the system instead of being a key, bit 3 has changes of size reported, bit 4 the mouse, bit 6
has the mouse select text instead, bit 9 has keys turned into escape sequences.
-/

namespace Mortal.Spec

/-- What the user does: a key or something with the mouse, or a new size for the window. -/
inductive ConAct
  | user (a : UserAct)
  | resize (z : Size)
deriving DecidableEq

/-- The record of a key going down: a key with a name has its virtual key code, another one has not; a
character has its UTF-16 unit, and neither Alt nor Ctrl; a letter with Ctrl has its position in the
alphabet, and Ctrl but not Alt. -/
def KeyGoesDown (k : Key) (r : KeyRec) : Prop :=
  r.down = true ∧
  match k with
  | .char c => (∀ key, (r.vk.toNat, key) ∉ namedKeys) ∧ r.uchar.toNat = c.toNat ∧ NoMods r.keys
  | .ctrl c => (∀ key, (r.vk.toNat, key) ∉ namedKeys) ∧ r.uchar.toNat + 96 = c.toNat ∧
    (r.keys.getLsbD 2 = true ∨ r.keys.getLsbD 3 = true) ∧ r.keys.getLsbD 0 = false ∧
    r.keys.getLsbD 1 = false
  | key => (r.vk.toNat, key) ∈ namedKeys

/-- The record of something done with the mouse, from the buttons held before to those held after it. A
turn of the wheel is told by bit 2 of the flags and the sign of the high word. -/
def MouseDoes (held : BitVec 32) (a : MouseAct) (p : Cursor) (m : ModifierState) (r : MouseRec)
    (held' : BitVec 32) : Prop :=
  r.pos = atCoord p ∧ m.alt = (r.keys.getLsbD 0 || r.keys.getLsbD 1) ∧
  m.ctrl = (r.keys.getLsbD 2 || r.keys.getLsbD 3) ∧ m.shift = r.keys.getLsbD 4 ∧
  match a with
  | .press b => r.flags.getLsbD 2 = false ∧ r.buttons = held' ∧ ∃ k < 16, buttonOf k = b ∧
      held.getLsbD k = false ∧ ∀ i, held'.getLsbD i = if i = k then true else held.getLsbD i
  | .release b => r.flags.getLsbD 2 = false ∧ r.buttons = held' ∧ ∃ k < 16, buttonOf k = b ∧
      held.getLsbD k = true ∧ ∀ i, held'.getLsbD i = if i = k then false else held.getLsbD i
  | .wheelUp => r.flags.getLsbD 2 = true ∧ held' = held ∧ r.buttons.getLsbD 31 = false ∧
      ∃ i, 16 ≤ i ∧ r.buttons.getLsbD i = true
  | .wheelDown => r.flags.getLsbD 2 = true ∧ held' = held ∧ r.buttons.getLsbD 31 = true
  | .move (some b) => r.flags.getLsbD 2 = false ∧ r.buttons = held ∧ held' = held ∧
      ∃ k < 16, buttonOf k = b ∧ held.getLsbD k = true
  | .move none => r.flags.getLsbD 2 = false ∧ r.buttons = 0 ∧ held = 0 ∧ held' = 0

/-- Records that come anyhow: keys going up, keys going down that are neither named nor have a character
(Shift and the like), focus and menu records. -/
def IdleRec : InRec → Prop
  | .key r => r.down = false ∨ ((∀ key, (r.vk.toNat, key) ∉ namedKeys) ∧ r.uchar = 0)
  | .other => True
  | _ => False

/-- Is Ctrl-C a matter of the system? -/
def SystemKey (mode : BitVec 32) (k : Key) : Bool := mode.getLsbD 0 && k == .ctrl 'c'

/-- Is the mouse reported? -/
def MouseOn (mode : BitVec 32) : Bool := mode.getLsbD 4 && !mode.getLsbD 6

/-- The records the queue gets for what the user does, while the input mode is `mode`, from the buttons
held in the beginning to those held at the end. Keys are reported as here only without escape
sequences. -/
inductive Queued (mode : BitVec 32) : BitVec 32 → List ConAct → List InRec → BitVec 32 → Prop
  | nil (h : BitVec 32) : Queued mode h [] [] h
  | idle {h acts rs h'} (r : InRec) (hr : IdleRec r) (q : Queued mode h acts rs h') :
      Queued mode h acts (r :: rs) h'
  | key {h acts rs h'} (k : Key) (r : KeyRec) (hs : SystemKey mode k = false)
      (hv : mode.getLsbD 9 = false) (hr : KeyGoesDown k r) (q : Queued mode h acts rs h') :
      Queued mode h (.user (.key k) :: acts) (.key r :: rs) h'
  | system {h acts rs h'} (k : Key) (hs : SystemKey mode k = true) (q : Queued mode h acts rs h') :
      Queued mode h (.user (.key k) :: acts) rs h'
  | mouse {h acts rs h' h1} (a : MouseAct) (p : Cursor) (m : ModifierState) (r : MouseRec)
      (ho : MouseOn mode = true) (hr : MouseDoes h a p m r h1) (q : Queued mode h1 acts rs h') :
      Queued mode h (.user (.mouse a p m) :: acts) (.mouse r :: rs) h'
  | unseen {h acts rs h'} (a : MouseAct) (p : Cursor) (m : ModifierState) (ho : MouseOn mode = false)
      (q : Queued mode h acts rs h') : Queued mode h (.user (.mouse a p m) :: acts) rs h'
  | size {h acts rs h'} (z : Size) (ho : mode.getLsbD 3 = true) (q : Queued mode h acts rs h') :
      Queued mode h (.resize z :: acts) (.size (sizeCoord z) :: rs) h'
  | unsized {h acts rs h'} (z : Size) (ho : mode.getLsbD 3 = false) (q : Queued mode h acts rs h') :
      Queued mode h (.resize z :: acts) rs h'

/-- Something a user can do at a console: printable characters of the basic plane (others are C49),
letters with Ctrl, F1 to F12 and the named keys; sizes and positions are `SHORT`s. -/
def ConAct.Possible : ConAct → Prop
  | .user (.key (.char c)) => ¬ Control c ∧ c.toNat < 0x10000
  | .user (.key (.ctrl c)) => 'a' ≤ c ∧ c ≤ 'z'
  | .user (.key (.f n)) => 1 ≤ n ∧ n ≤ 12
  | .user (.key _) => True
  | .user (.mouse _ p _) => p.line < 2 ^ 15 ∧ p.column < 2 ^ 15
  | .resize z => z.lines < 2 ^ 15 ∧ z.columns < 2 ^ 15

/-- What a program expects to be told. -/
def ConAct.event : ConAct → Event
  | .user a => a.event
  | .resize z => .resize z

/-- What a program has asked to be told: as on a Unix terminal, and all changes of size; Ctrl-C is told
as a key if signals are blocked (otherwise C51 is about it). -/
def ConAsked (cfg : PrepareConfig) : ConAct → Bool
  | .user (.key k) => k != .ctrl 'c' || cfg.blockSignals
  | .user a => AskedFor cfg a
  | .resize _ => true

/-- The records that arrive: input, and those the control handler writes. -/
def arriving : List WEv → List InRec
  | [] => []
  | .input r :: l => r :: arriving l
  | .ctrl _ _ true :: l => wakeRecord :: arriving l
  | _ :: l => arriving l

/-- The calls, with the records `read_raw_event` has stored. -/
def SigOp.gives (t : WTerm) : SigOp → WM (Option Event × List InRec)
  | .readRawEvent n d => winReadRawEvent t n d
  | op => do let r ← op.run t; pure (r, [])

/-- Calls one after the other, whether they succeed or fail, with their results (`none`: it failed). No
result if a call does not return. -/
def callsMade (t : WTerm) :
    List SigOp → WinSt → Option (List (SigOp × Option (Option Event × List InRec)) × WinSt)
  | [], s => some ([], s)
  | op :: l, s =>
    match op.gives t s with
    | .ok r s' => (callsMade t l s').map fun (n, s'') => ((op, some r) :: n, s'')
    | .err _ s' => (callsMade t l s').map fun (n, s'') => ((op, none) :: n, s'')
    | .stop _ => none

/-- What an event says of the record it is made from. -/
def SaysOf : InRec → Event → Prop
  | .key _, e => e = .noEvent ∨ ∃ k, e = .key k
  | .mouse r, e => e = .noEvent ∨ ∃ m, e = .mouse m ∧
      (r.pos.x.toNat = r.pos.x → r.pos.y.toNat = r.pos.y → IsShort r.pos.x → IsShort r.pos.y →
        atCoord m.position = r.pos)
  | .size z, e => ∃ w, e = .resize w ∧ (z.x.toNat = z.x → z.y.toNat = z.y → IsShort z.x → IsShort z.y →
      sizeCoord w = z)
  | .other, e => e = .noEvent

/-- The records a call has taken from the queue, as its result shows. -/
def TookFor (op : SigOp) (res : Option (Option Event × List InRec)) (l : List InRec) : Prop :=
  match op, res with
  | .readRawEvent n _, some (ev, recs) => l = recs ∧ recs.length ≤ n ∧
      ((ev = some (.raw recs.length) ∧ recs ≠ []) ∨
        (recs = [] ∧ (ev = none ∨ ∃ sig, ev = some (.signal sig))))
  | .readEvent _, some (ev, _) => (l = [] ∧ (ev = none ∨ ∃ sig, ev = some (.signal sig))) ∨
      ∃ r e, l = [r] ∧ ev = some e ∧ SaysOf r e
  | _, _ => l = []

/-- Call by call. -/
inductive TookAll : List (SigOp × Option (Option Event × List InRec)) → List InRec → Prop
  | nil : TookAll [] []
  | cons {op res n l l'} (h : TookFor op res l) (t : TookAll n l') : TookAll ((op, res) :: n) (l ++ l')

/-- What the program is told: the events returned, except `NoEvent` and signals. -/
def toldEvents : List (SigOp × Option (Option Event × List InRec)) → List Event
  | [] => []
  | (_, some (some e, _)) :: l =>
    match e with
    | .noEvent | .signal _ => toldEvents l
    | e => e :: toldEvents l
  | _ :: l => toldEvents l

/-- A call that does not change the input mode, and does not read input other than as events. -/
def SigOp.Ordinary : SigOp → Prop
  | .prepare _ | .restore _ | .readRaw _ _ | .readRawEvent _ _ => False
  | _ => True

end Mortal.Spec
