import Verif.Lemmas.WinSignal
import Verif.Lemmas.WinCalls
import Verif.Spec.WinSeveral

/-! # Lemmas for programs with several terminals on Windows -/

namespace Mortal
open Spec

/-- The signal that has been handled and not been reported. -/
def keptW (p : WProc) : Option Signal := convCtrl (p.last.truncate 32)

theorem wput_t (p : WProc) (i j : Nat) (s : WinSt) : ((p.put i s).term j).t = (p.term j).t := by
  show (if j = i then _ else _ : TermW).t = _
  split
  · next h => subst h; rfl
  · rfl

theorem sessionW_account (ops : List (Nat × SigOp)) : ∀ (p p' : WProc) (n : List (Nat × Note)),
    sessionW ops p = some (n, p') → account (keptW p) (n.map Prod.snd) = some (keptW p') := by
  induction ops with
  | nil => intro p p' n h; cases h; rfl
  | cons x l ih =>
    intro p p' n h
    obtain ⟨i, op⟩ := x
    unfold sessionW at h
    dsimp only at h
    cases e : op.run (p.term i).t (p.view i) with
    | stop w => rw [e] at h; cases h
    | ok r s1 =>
      rw [e] at h
      dsimp only at h
      rw [Option.map_eq_some_iff] at h
      obtain ⟨⟨n1, s2⟩, h1, h2⟩ := h
      cases h2
      have := op_ok _ op e (n1.map Prod.snd)
      rw [List.map_append, List.map_map]
      show account (kept (p.view i)) (List.map id _ ++ _) = _
      rw [List.map_id, this]
      exact ih _ _ _ h1
    | err r s1 =>
      rw [e] at h
      dsimp only at h
      rw [Option.map_eq_some_iff] at h
      obtain ⟨⟨n1, s2⟩, h1, h2⟩ := h
      cases h2
      have := op_err _ op e (n1.map Prod.snd)
      rw [List.map_append, List.map_map]
      show account (kept (p.view i)) (List.map id _ ++ _) = _
      rw [List.map_id, this]
      exact ih _ _ _ h1

/-- As long as nothing is prepared, the same signals are handled. -/
theorem sessionW_handled (ops : List (Nat × SigOp)) (hp : ∀ x ∈ ops, ¬ x.2.IsPrepare) :
    ∀ (p p' : WProc) (n : List (Nat × Note)), sessionW ops p = some (n, p') →
      ∀ x ∈ n, ∀ e, x.2 = .ev e → HandledAs p.catchSet e := by
  induction ops with
  | nil => intro p p' n h; cases h; intro x hx; cases hx
  | cons y l ih =>
    intro p p' n h
    obtain ⟨i, op⟩ := y
    have hop := minds_other (p.term i).t op (hp (i, op) (by simp))
    have hl := ih fun o ho => hp o (List.mem_cons_of_mem _ ho)
    unfold sessionW at h
    dsimp only at h
    cases e : op.run (p.term i).t (p.view i) with
    | stop w => rw [e] at h; cases h
    | ok r s1 =>
      rw [e] at h
      dsimp only at h
      rw [Option.map_eq_some_iff] at h
      obtain ⟨⟨n1, s2⟩, h1, h2⟩ := h
      cases h2
      obtain ⟨D, g1, g2, g3, -⟩ := hop.1 _ r s1 e
      rw [between_eq g1]
      rintro ⟨j, x⟩ hx ev rfl
      rcases List.mem_append.mp hx with hx | hx
      · obtain ⟨y, hy, hy'⟩ := List.mem_map.mp hx
        cases hy'
        rcases List.mem_append.mp hy with hx | hx
        · obtain ⟨d, hd, hd'⟩ := List.mem_map.mp hx
          cases hd'
          exact g3 _ hd
        · unfold reportOf at hx
          split at hx <;> simp at hx
      · have := hl _ _ _ h1 _ hx ev rfl
        show HandledAs (p.view i).catchSet ev
        rw [← g2]; exact this
    | err r s1 =>
      rw [e] at h
      dsimp only at h
      rw [Option.map_eq_some_iff] at h
      obtain ⟨⟨n1, s2⟩, h1, h2⟩ := h
      cases h2
      obtain ⟨D, g1, -, g2, g3⟩ := hop.2 _ r s1 e
      rw [between_eq g1]
      rintro ⟨j, x⟩ hx ev rfl
      rcases List.mem_append.mp hx with hx | hx
      · obtain ⟨y, hy, hy'⟩ := List.mem_map.mp hx
        cases hy'
        obtain ⟨d, hd, hd'⟩ := List.mem_map.mp hy
        cases hd'
        exact g3 _ hd
      · have := hl _ _ _ h1 _ hx ev rfl
        show HandledAs (p.view i).catchSet ev
        rw [← g2]; exact this

/-! ## Modes -/

/-- What holds before and after uses of `prepare` and `restore`: records, console, terminals. -/
structure Moved (u : UEnv) (k : Nat) (p p' : WProc) (c : Con) (Q : Con → Prop) : Prop where
  t : ∀ j, (p'.term j).t = (p.term j).t
  grows : ∃ D, p'.log = p.log ++ D
  con : ∀ D, p'.log = p.log ++ D → c.Runs u k D → ∃ c', c.play u k D = some c' ∧ Q c'

theorem Moved.refl (u : UEnv) (k : Nat) (p : WProc) (c : Con) : Moved u k p p c (· = c) := by
  refine ⟨fun _ => rfl, ⟨[], by simp⟩, fun D h _ => ?_⟩
  have : D = [] := by simpa using h
  subst this
  exact ⟨c, rfl, rfl⟩

theorem Moved.mono {u : UEnv} {k : Nat} {p p' : WProc} {c : Con} {Q R : Con → Prop}
    (h : Moved u k p p' c Q) (hr : ∀ c', Q c' → R c') : Moved u k p p' c R :=
  ⟨h.t, h.grows, fun D e r => let ⟨c', a, b⟩ := h.con D e r; ⟨c', a, hr _ b⟩⟩

theorem Moved.trans {u : UEnv} {k : Nat} {p p1 p2 : WProc} {c : Con} {Q R : Con → Prop}
    (h1 : Moved u k p p1 c Q) (h2 : ∀ c1, Q c1 → Moved u k p1 p2 c1 R)
    (hg : ∃ D, p2.log = p1.log ++ D) (ht : ∀ j, (p2.term j).t = (p1.term j).t) :
    Moved u k p p2 c R := by
  obtain ⟨D1, e1⟩ := h1.grows
  obtain ⟨D2, e2⟩ := hg
  refine ⟨fun j => (ht j).trans (h1.t j), ⟨D1 ++ D2, by rw [e2, e1, List.append_assoc]⟩, ?_⟩
  intro D e r
  have : D = D1 ++ D2 := by
    rw [e2, e1, List.append_assoc] at e
    exact (List.append_cancel_left e).symm
  subst this
  obtain ⟨r1, r2⟩ := con_runs_append r
  obtain ⟨c1, q1, q2⟩ := h1.con D1 e1 r1
  obtain ⟨c2, q3, q4⟩ := (h2 c1 q2).con D2 e2 (r2 c1 q1)
  exact ⟨c2, by rw [con_play_append, q1]; exact q3, q4⟩

theorem prepare_moved (u : UEnv) {k i : Nat} {p : WProc} {cfg : PrepareConfig} {st : WinPrepared}
    {s : WinSt} (hk : (p.term i).t.inH = k) (h : winPrepare (p.term i).t cfg (p.view i) = .ok st s)
    (c : Con) : Moved u k p (p.put i s) c (fun c' => st = ⟨c.inMode, reports cfg⟩ ∧
      ∃ q, c' = { preparedCon cfg c with queue := q }) := by
  subst hk
  have hd := does_prepare (u := u) c (p.view i) (p.term i).t cfg
  refine ⟨fun j => wput_t p i j s, (hd.grows (p.view i)).1 _ _ h, fun D e r => ?_⟩
  obtain ⟨c', a, b, q, -⟩ := hd.ok _ c (.refl c _) _ _ D h e r
  exact ⟨c', a, b, q⟩

theorem restore_moved (u : UEnv) {k i : Nat} {p : WProc} {st : WinPrepared} {s : WinSt} {a : Unit}
    (hk : (p.term i).t.inH = k) (h : winRestore (p.term i).t st (p.view i) = .ok a s)
    (c : Con) : Moved u k p (p.put i s) c (fun c' => ∃ q, c' = { restoredCon st c with queue := q }) := by
  subst hk
  have hd := does_restore (u := u) c (p.view i) (p.term i).t st
  refine ⟨fun j => wput_t p i j s, (hd.grows (p.view i)).1 _ _ h, fun D e r => ?_⟩
  obtain ⟨c', a, q, -⟩ := hd.ok _ c (.refl c _) _ _ D h e r
  exact ⟨c', a, q⟩

theorem runUsesW_append (a b : List UseW) : ∀ (held : List HeldW) (p : WProc),
    runUsesW (a ++ b) held p = (runUsesW a held p).bind fun x => runUsesW b x.1 x.2 := by
  induction a with
  | nil => intro held p; rfl
  | cons x a ih =>
    intro held p
    cases x with
    | prepare i cfg =>
      simp only [List.cons_append, runUsesW]
      split
      · exact ih _ _
      · rfl
    | restore k =>
      simp only [List.cons_append, runUsesW]
      split
      · rfl
      · split
        · exact ih _ _
        · rfl

theorem runUsesW_grows (ops : List UseW) : ∀ (held held' : List HeldW) (p p' : WProc),
    runUsesW ops held p = some (held', p') →
    (∃ D, p'.log = p.log ++ D) ∧ ∀ j, (p'.term j).t = (p.term j).t := by
  induction ops with
  | nil => intro held held' p p' h; cases h; exact ⟨⟨[], by simp⟩, fun _ => rfl⟩
  | cons x a ih =>
    intro held held' p p' h
    cases x with
    | prepare i cfg =>
      simp only [runUsesW] at h
      split at h
      · next st s e =>
        have m := prepare_moved demoEnv rfl e demoCon
        obtain ⟨⟨D2, g2⟩, t2⟩ := ih _ _ _ _ h
        obtain ⟨D1, g1⟩ := m.grows
        exact ⟨⟨D1 ++ D2, by rw [g2, g1, List.append_assoc]⟩, fun j => (t2 j).trans (m.t j)⟩
      · cases h
    | restore k =>
      simp only [runUsesW] at h
      split at h
      · cases h
      · split at h
        · next st s e =>
          have m := restore_moved demoEnv rfl e demoCon
          obtain ⟨⟨D2, g2⟩, t2⟩ := ih _ _ _ _ h
          obtain ⟨D1, g1⟩ := m.grows
          exact ⟨⟨D1 ++ D2, by rw [g2, g1, List.append_assoc]⟩, fun j => (t2 j).trans (m.t j)⟩
        · cases h

end Mortal
