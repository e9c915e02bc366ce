import Verif.Spec.ScreenSession
import Verif.Spec.Prepare

/-! # How far a failed `prepare`, `restore` or drop has come (C36, C37) -/

namespace Mortal.Spec

/-- The signals `prepare` installs handlers for, in its order. -/
def installOrder (cfg : PrepareConfig) : List Sig :=
  [.cont, .winch] ++ (if cfg.reportSignals.contains .interrupt then [.int] else []) ++
    (if cfg.reportSignals.contains .suspend then [.tstp] else []) ++
    (if cfg.reportSignals.contains .quit then [.quit] else [])

/-- The order in which `restore` puts dispositions back. -/
def restoreOrder : List Sig := [.cont, .int, .tstp, .quit, .winch]

/-- The dispositions are `new` for the signals of `l` and as in `old` for the others. -/
def ActedOn (l : List Sig) (new old act : SigTab) : Prop :=
  ∀ g, act.get g = if g ∈ l then new.get g else old.get g

/-- All dispositions are the crate's handler. -/
def allOurs : SigTab := ⟨.ours, .ours, .ours, .ours, .ours⟩

/-- What dropping a screen may leave of a session that began in `s0` and is in `s2` when it is
dropped: everything is put back and the alternate screen is left (`ca`: if there is a command for
it); or `restore` failed, the alternate screen stays, and the modes and handlers are those of the
session, or the modes and the first few of the handlers have been put back. -/
def AfterDrop (ca : Prop) (s0 s2 s3 : US) : Prop :=
  s3.resume = s0.resume ∧
  ((s3.tio = s0.tio ∧ s3.act = s0.act ∧ (ca → altScreen s3.w.log = false)) ∨
   (altScreen s3.w.log = altScreen s2.w.log ∧
     ((s3.tio = s2.tio ∧ s3.act = s2.act) ∨
      (s3.tio = s0.tio ∧
        ∃ k, k < 5 ∧ ActedOn (restoreOrder.take k) s0.act s2.act s3.act))))

end Mortal.Spec
