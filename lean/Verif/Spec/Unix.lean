import Verif.Model.Unix
import Verif.Spec.Writer
import Verif.Spec.Input

/-! # Histories of calls on a Unix terminal, and what they should do -/

namespace Mortal.Spec

/-- The program's view of a result. -/
def ret {α : Type} (f : α → URet) : Res α → Option (URet × US)
  | .ok a s => some (f a, s)
  | .err e s => some (.err e, s)
  | .stop _ => none

/-- How the result of `read_raw` looks. -/
def InRes.ret : InRes → URet
  | .nothing => .event none
  | .raw b => .raw b
  | .event ev => .event (some ev)

/-- One call. The stack holds the states returned by `prepare`; `restore` uses the last one and
does nothing if there is none. -/
def UOp.run (env : REnv) (st : List PrepareState) (s : US) :
    UOp → Option (URet × List PrepareState × US)
  | .prepare cfg =>
    match Mortal.prepare env cfg s with
    | .ok p s' => some (.unit, p :: st, s')
    | .err e s' => some (.err e, st, s')
    | .stop _ => none
  | .restore =>
    match st with
    | [] => some (.unit, [], s)
    | p :: st => (ret (fun _ => .unit) (Mortal.restore env p s)).map fun (r, s) => (r, st, s)
  | .waitEvent t => (ret .flag (Mortal.waitEvent env t s)).map fun (r, s) => (r, st, s)
  | .readEvent t => (ret .event (Mortal.readEvent env t s)).map fun (r, s) => (r, st, s)
  | .readRaw n t => (ret InRes.ret (Mortal.readRaw env n t s)).map fun (r, s) => (r, st, s)
  | .write op => (ret (fun _ => .unit) (liftW (op.run env.w) s)).map fun (r, s) => (r, st, s)

/-- A history of calls: all results, and the state at the end. `none` if a call does not return. -/
def runU (env : REnv) : List UOp → List PrepareState → US →
    Option (List URet × List PrepareState × US)
  | [], st, s => some ([], st, s)
  | op :: ops, st, s => do
    let (r, st, s) ← UOp.run env st s op
    let (rs, st, s) ← runU env ops st s
    pure (r :: rs, st, s)

/-- The bytes `b` stand for the event: a known sequence, a whole mouse report after the
introducer, or a single character. -/
inductive Denotes (K : PMap SeqData) : Bytes → Event → Prop
  | key {b : Bytes} {k : Key} : K b = some (.key k) → b ≠ [] → Denotes K b (.key k)
  | char (c : Char) : Denotes K (String.utf8EncodeChar c) (.key (Key.ofChar c))
  | mouse {i d1 d2 d3 : Bytes} {press : Bool} : K i = some .xtermMouse → i ≠ [] → Digits d1 →
      Digits d2 → Digits d3 →
      Denotes K (i ++ (d1 ++ [59] ++ d2 ++ [59] ++ d3 ++ [if press then 77 else 109]))
        (.mouse (sgrEvent (numeral d1) (numeral d2) (numeral d3) press))

/-- The bytes of the input stream a call has used up, given its result. -/
inductive Uses (K : PMap SeqData) : URet → Bytes → Prop
  | raw (b : Bytes) : Uses K (.raw b) b
  | event {b : Bytes} {ev : Event} : Denotes K b ev → Uses K (.event (some ev)) b
  | signal (sig : Signal) : Uses K (.event (some (.signal sig))) []
  | resize (sz : Size) : Uses K (.event (some (.resize sz))) []
  | nothing : Uses K (.event none) []
  | err (e : IoErr) : Uses K (.err e) []
  | flag (b : Bool) : Uses K (.flag b) []
  | unit : Uses K .unit []

/-- `n` calls of `read_event` in a row. -/
def readMany (env : REnv) (t : Option Nat) : Nat → M (List (Option Event))
  | 0 => pure []
  | n + 1 => do
    let e ← readEvent env t
    pure (e :: (← readMany env t n))

/-- The key and mouse events among results. -/
def inputEvents : List URet → List Event
  | [] => []
  | .event (some (.key k)) :: r => .key k :: inputEvents r
  | .event (some (.mouse m)) :: r => .mouse m :: inputEvents r
  | _ :: r => inputEvents r

end Mortal.Spec
