import Verif.Lemmas.HowFar
import Verif.Props.ScreenSession

/-! # C36 and C37 with failures: how far a failed call has come -/

namespace Mortal
open Spec

/-- C36, exactly what a failed `prepare` leaves: nothing has changed, or the modes are set and the
first few of the handlers, in the order of installation, but not all, are installed. The signals to
report and the configuration remembered are as before in either case. -/
theorem C36_how_far (env : REnv) (cfg : PrepareConfig) (s s' : US) (e : IoErr)
    (h : prepare env cfg s = .err e s') :
    s'.report = s.report ∧ s'.resume = s.resume ∧
    ((s'.tio = s.tio ∧ s'.act = s.act) ∨
     (ModesFor cfg s.tio s'.tio ∧ ∃ k, k < (installOrder cfg).length ∧
       ActedOn ((installOrder cfg).take k) allOurs s.act s'.act)) := by
  obtain ⟨h1, h2, -⟩ := C36_failed_prepare_partial env cfg s s' e h
  refine ⟨h1, h2, ?_⟩
  rcases prepare_far h with h | ⟨h3, h4⟩
  · exact .inl h
  · exact .inr ⟨by rw [h3]; exact modes_for cfg s.tio, h4⟩

/-- C37 with failures of any kind, also while the screen is dropped: a screen is opened, used in any
way and dropped. The configuration remembered is as before. Everything else is put back and the
alternate screen is left, or the alternate screen is not left and the modes and handlers are as they
were in use, or the modes and only the first few handlers are put back. -/
theorem C37_how_far (u : UEnv) (env : REnv) (cfg : PrepareConfig) (ops : List ScrOp)
    (rs : List URet) (scr : ScreenU) (d : SData) (s0 s1 s2 s3 : US)
    (h1 : screenNew env cfg s0 = .ok scr s1)
    (h2 : runScr u env ops scr.data s1 = some (rs, d, s2))
    (h3 : screenDrop env scr.state s2 = .ok () s3) :
    AfterDrop (GoodDB env.w ∧ (env.w.db .exitCaMode).isSome) s0 s2 s3 := by
  obtain ⟨sa, sb, k1, k2, k3, _⟩ := screenNew_ok h1
  obtain ⟨c1, _⟩ := termSize_ok k1
  have e1 : Stays sb s1 := (keeps_termEnter (R := Stays) env).ok k3
  obtain ⟨a1, r1⟩ := e1 (coherent_prepared k2)
  obtain ⟨a2, _⟩ := stays_runScr h2 ((coherent_prepared k2).stays a1 r1)
  obtain ⟨q1, q2⟩ := screenDrop_any k2 (a2.trans a1) h3
  unfold AfterDrop
  rw [← show sa.resume = s0.resume from core_resume c1, ← show sa.tio = s0.tio from core_tio c1,
    ← show sa.act = s0.act from core_act c1]
  exact ⟨q1, q2⟩

/-- C37: opening a screen fails, for whatever reason. If the size could not be asked for, nothing has
changed; if `prepare` failed, it has come as far as `C36_how_far` says, and nothing is put back; if
the alternate screen could not be entered, the screen has been dropped again, as `C37_how_far`
says, from a state with the modes and handlers asked for. -/
theorem C37_failed_new_how_far (env : REnv) (cfg : PrepareConfig) (s0 s1 : US) (e : IoErr)
    (h : screenNew env cfg s0 = .err e s1) :
    (s1.tio = s0.tio ∧ s1.act = s0.act ∧ s1.resume = s0.resume) ∨
    (s1.resume = s0.resume ∧ ModesFor cfg s0.tio s1.tio ∧ ∃ k, k < (installOrder cfg).length ∧
       ActedOn ((installOrder cfg).take k) allOurs s0.act s1.act) ∨
    (∃ s2, HandlersFor cfg s0.act s2.act ∧ ModesFor cfg s0.tio s2.tio ∧
      AfterDrop (GoodDB env.w ∧ (env.w.db .exitCaMode).isSome) s0 s2 s1) := by
  have dropped : ∀ {sx : US}, ((∃ e2, termDrop env sx = .err e2 s1) ∨ termDrop env sx = .ok () s1) →
      SameButLog sx s1 := by
    rintro sx (⟨e2, hd⟩ | hd)
    · unfold termDrop printErr at hd
      split at hd <;> cases hd
    · exact (termDrop_any hd).1
  rcases M.bind_err h with h | ⟨z, sa, k1, h⟩
  · obtain ⟨e1, sx, h, hd⟩ := orDrop_err h
    obtain ⟨d1, d2, -, d4⟩ := dropped hd
    have hk : Keeps SameButLog (termSize env) :=
      keeps_withWriter env (keeps_sysCall.bind fun _ => Keeps.getS.bind fun _ => Keeps.pure _)
    obtain ⟨t1, t2, -, t4⟩ := hk.err h
    exact .inl ⟨d1.trans t1, d2.trans t2, d4.trans t4⟩
  obtain ⟨c1, _⟩ := termSize_ok (orDrop_ok k1)
  have ht : sa.tio = s0.tio := core_tio c1
  have ha : sa.act = s0.act := core_act c1
  have hr : sa.resume = s0.resume := core_resume c1
  rcases M.bind_err h with h | ⟨p, sb, k2, h⟩
  · obtain ⟨e1, sx, h, hd⟩ := orDrop_err h
    obtain ⟨d1, d2, -, d4⟩ := dropped hd
    obtain ⟨-, q2, q3⟩ := C36_how_far env cfg sa sx e1 h
    rcases q3 with ⟨q3, q4⟩ | ⟨q3, k, hk, q4⟩
    · exact .inl ⟨d1.trans (q3.trans ht), d2.trans (q4.trans ha), d4.trans (q2.trans hr)⟩
    · refine .inr (.inl ⟨d4.trans (q2.trans hr), ?_, k, hk, ?_⟩)
      · rw [d1, ← ht]; exact q3
      · rw [d2, ← ha]; exact q4
  have k2 := orDrop_ok k2
  rcases M.bind_err h with h | ⟨_, sc, _, h⟩
  · obtain ⟨e1, sx, h, hd⟩ := orDrop_err h
    have hk : Keeps SameButLog (termEnter env) := keeps_termEnter env
    obtain ⟨t1, t2, -, t4⟩ := hk.err h
    obtain ⟨p1, p2, -⟩ := C35_prepare_establishes env cfg sa sb _ k2
    refine .inr (.inr ⟨sx, ?_, ?_, ?_⟩)
    · rw [t2, ← ha]; exact p2
    · rw [t1, ← ht]; exact p1
    · rcases hd with ⟨e2, hd⟩ | hd
      · exfalso
        rcases M.bind_err hd with h5 | ⟨_, s5, h5, h6⟩
        · unfold printErr at h5; split at h5 <;> cases h5
        · unfold termDrop printErr at h6; split at h6 <;> cases h6
      · have q := screenDrop_any k2 t2 hd
        unfold AfterDrop at q ⊢
        rw [ht, ha, hr] at q
        exact q
  · cases h

/-- C36, C37: `prepare` fails at the fourth handler of five: three are installed. A screen whose
drop fails at the third handler: two are put back, and the alternate screen is not left. -/
example :
    ((errOf (prepare demoEnvR { demoCfg with reportSignals := SignalSet.all } { easyUS 0 with
      sched := List.replicate 5 (okStep 0) ++ [⟨[], .fail, none⟩] })).map fun x =>
        ([Sig.cont, .winch, .int, .tstp, .quit].map fun g => decide (x.2.act.get g = .ours))) =
      some [true, true, true, false, false] ∧
    (wholeSession demoEnvR { demoCfg with reportSignals := SignalSet.all } []
      (fun s => { s with
        sched := List.replicate 3 (okStep 0) ++ [⟨[], .fail, none⟩] ++ List.replicate 9 (okStep 0) })
      (smallUS 60)).map
      (fun x => (restoreOrder.map (fun g => decide (x.2.act.get g = .ours)),
        decide (x.2.tio = (smallUS 60).tio), altScreen x.2.w.log)) =
      some ([false, false, true, true, true], true, true) := by
  constructor <;> decide +kernel

end Mortal
