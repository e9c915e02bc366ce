import Verif.Model.Several
import Verif.Spec.Prepare
import Verif.Spec.SignalFate

/-! # Programs with several terminals (C79) -/

namespace Mortal.Spec

/-- What happens: a call on a terminal (`restore` uses the `k`-th of the states that `prepare` has
returned and that are not used up), or something between calls. -/
inductive PStep
  | on (i : Nat) (op : UOp) (k : Nat)
  | outside (i : Nat) (size : Option Size) (sigs : List Sig)

/-- One step. `env i` belongs to terminal `i`; `held` are the states that can be restored, the last
one first. -/
def PStep.run (env : Nat → REnv) (held : List PrepareState) (p : Proc) :
    PStep → Option (List (Nat × URet) × List PrepareState × Proc)
  | .on i .restore k =>
    (UOp.run (env i) held[k]?.toList (p.view i) .restore).map fun (r, st, s) =>
      ([(i, r)], st ++ held.eraseIdx k, p.put i s)
  | .on i op _ =>
    (UOp.run (env i) [] (p.view i) op).map fun (r, st, s) => ([(i, r)], st ++ held, p.put i s)
  | .outside i size sigs => some ([], held, p.outside i size sigs)

/-- A program: all results, each with its terminal. -/
def runP (env : Nat → REnv) : List PStep → List PrepareState → Proc →
    Option (List (Nat × URet) × List PrepareState × Proc)
  | [], held, p => some ([], held, p)
  | x :: xs, held, p => do
    let (rs, held, p) ← x.run env held p
    let (rs', held, p) ← runP env xs held p
    pure (rs ++ rs', held, p)

/-- The signal that is pending for the process. -/
def procPending (p : Proc) : Option Sig :=
  [Sig.cont, .winch, .int, .tstp, .quit].find? fun g => g.num = p.last

/-- A result, its terminal, the bytes its call took from the device, and the bytes it stands for. -/
structure Share where
  term : Nat
  res : URet
  got : Bytes
  used : Bytes

/-- The bytes taken from the device by terminals for which `f` holds. -/
def gotBy (f : Nat → Bool) (l : List Share) : Bytes := (l.filter fun x => f x.term).flatMap (·.got)

/-- The bytes that the results of terminal `i` stand for. -/
def usedBy (i : Nat) (l : List Share) : Bytes := (l.filter fun x => x.term == i).flatMap (·.used)

/-- Well-nested use of `prepare` and `restore`, the terminals taken together: other calls on any
terminals, whatever their result, and successful calls of `prepare` and `restore` so that what is
prepared last, on whichever terminal, is restored first. -/
inductive PBalanced (env : Nat → REnv) : Proc → Proc → Prop
  | done (p : Proc) : PBalanced env p p
  | outside {p q : Proc} (i : Nat) (size : Option Size) (sigs : List Sig) :
      PBalanced env (p.outside i size sigs) q → PBalanced env p q
  | call {p q : Proc} {i : Nat} {op : UOp} {s : US} {r : URet} {st : List PrepareState} :
      IsPlainCall op → UOp.run (env i) st (p.view i) op = some (r, st, s) →
      PBalanced env (p.put i s) q → PBalanced env p q
  | nest {p p1 q : Proc} {i : Nat} {cfg : PrepareConfig} {st : PrepareState} {s s' : US} :
      prepare (env i) cfg (p.view i) = .ok st s → PBalanced env (p.put i s) p1 →
      restore (env i) st (p1.view i) = .ok () s' → PBalanced env (p1.put i s') q →
      PBalanced env p q

/-- Every terminal that is prepared has the handlers of its configuration. -/
def HandlersIn (p : Proc) : Prop :=
  ∀ j cfg, (p.term j).resume = some cfg → ∀ g, HandledUnder cfg g → p.act.get g = .ours

/-- The terminal a step belongs to. -/
def PStep.term : PStep → Nat
  | .on i _ _ => i
  | .outside i _ _ => i

/-- Two processes that differ at most in terminals other than those of `J` and in devices none of those
is on. -/
structure SameForU (J : Nat → Prop) (p q : Proc) : Prop where
  act : p.act = q.act
  last : p.last = q.last
  sched : p.sched = q.sched
  seen : p.seen = q.seen
  waited : p.waited = q.waited
  term : ∀ i, J i → p.term i = q.term i
  tty : ∀ i, J i → p.tty (p.term i).tty = q.tty (q.term i).tty

/-- Terminals other than those of `J`, and devices none of those is on, are as they were. -/
def OthersKept (J : Nat → Prop) (p p' : Proc) : Prop :=
  (∀ j, ¬ J j → p'.term j = p.term j) ∧ ∀ d, (∀ i, J i → (p.term i).tty ≠ d) → p'.tty d = p.tty d

end Mortal.Spec
