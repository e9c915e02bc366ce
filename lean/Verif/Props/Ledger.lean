import Verif.Lemmas.LedgerLost
import Verif.Props.Screen

/-!
# C20: exactly what the terminal shows when refreshes fail
-/

namespace Mortal
open Spec

/-- C20, exactly: in every session without two-column characters, whichever refreshes fail and
wherever, the terminal shows in every cell what the bookkeeping of `Spec/Ledger.lean` says. -/
theorem C20_exact {u : UEnv} (hT : TableOk u) {env : WEnv} (hdb : DrawDB env) {z : Size}
    (hz : ScreenSize z) {x y : Sess} (hx : Opened u env z x) (steps : List SStep)
    (hs : ∀ st ∈ steps, NarrowStep u st) (rs : List Bool)
    (h : runS u env steps x = some (rs, y)) :
    ∃ L, Ledger.follow u env steps x (Ledger.start z) = some L ∧
      runOps u (steps.filterMap SStep.asOp) (Buf.new z) = some L.buf ∧
      y.t.size = L.buf.size ∧ ∀ p, InBounds p L.buf.size → y.t.cell p = L.shown p := by
  obtain ⟨L, bad, h1, h2, h3⟩ := tally_run hT hdb steps [] x y rs (Ledger.start z)
    (opened_ninv hT hdb hz hx) (tally_start hT hdb hz hx) hs h
  have hsz : y.t.size = L.buf.size := by rw [h3.held.size, h2.buf]; rfl
  exact ⟨L, h1, follow_buf u env steps x (Ledger.start z) L h1, hsz,
    fun p hin => h2.shown p (by rw [hsz]; exact hin)⟩

/-- C20, each refresh: it hands over the first of the due cells, in reading order, each once. All of
them if it returns `Ok`. -/
theorem C20_each_refresh {u : UEnv} (hT : TableOk u) {env : WEnv} (hdb : DrawDB env) {z : Size}
    (hz : ScreenSize z) {x y y' : Sess} (hx : Opened u env z x) (steps : List SStep)
    (hs : ∀ st ∈ steps, NarrowStep u st) (rs : List Bool)
    (h : runS u env steps x = some (rs, y)) {r : Bool}
    (h' : SStep.refresh.run u env y = some (r, y')) :
    ∃ L n, Ledger.follow u env steps x (Ledger.start z) = some L ∧ n ≤ L.due.length ∧
      handed y y' = (L.due.take n).map (textAt L.buf) ∧ (r = true → n = L.due.length) := by
  obtain ⟨L, bad, h1, h2, h3⟩ := tally_run hT hdb steps [] x y rs (Ledger.start z)
    (opened_ninv hT hdb hz hx) (tally_start hT hdb hz hx) hs h
  obtain ⟨L', g1, g2, g3⟩ := h2.step hT hdb h3 (st := .refresh) trivial h'
  obtain ⟨a, b, c⟩ := g3 rfl
  exact ⟨L, _, h1, b, a, c⟩

/-- C20, only lost cells are wrong: if after a refresh that returned `Ok` the terminal shows a cell
otherwise than the program drew it, then an earlier refresh has failed at that cell: it had handed
over all the due cells before it, the cell had its present content already, and the size has not
changed since. -/
theorem C20_wrong_only_if_lost {u : UEnv} (hT : TableOk u) {env : WEnv} (hdb : DrawDB env)
    {z : Size} (hz : ScreenSize z) {x y : Sess} (hx : Opened u env z x) (steps : List SStep)
    (hs : ∀ st ∈ steps, NarrowStep u st) (rs : List Bool)
    (h : runS u env (steps ++ [.refresh]) x = some (rs ++ [true], y)) {b : Buf}
    (hb : runOps u (steps.filterMap SStep.asOp) (Buf.new z) = some b) {p : Cursor} {c : Cell}
    (hp : InBounds p b.size) (hc : cellAt b p = some c) (hw : y.t.cell p ≠ picture u c) :
    ∃ before after rs1 y1 y2 L, steps = before ++ .refresh :: after ∧
      (∀ z cell cur, .resized z cell cur ∉ after) ∧
      runS u env before x = some (rs1, y1) ∧ SStep.refresh.run u env y1 = some (false, y2) ∧
      Ledger.follow u env before x (Ledger.start z) = some L ∧
      L.due[(handed y1 y2).length]? = some p ∧ cellAt L.buf p = some c := by
  have hs' : ∀ st ∈ steps ++ [SStep.refresh], NarrowStep u st := fun st hst => by
    rcases List.mem_append.mp hst with h | h
    · exact hs st h
    · rw [List.mem_singleton.mp h]; exact trivial
  obtain ⟨L, h1, h2, h3, h4⟩ := C20_exact hT hdb hz hx (steps ++ [.refresh]) hs' _ h
  have hLb : L.buf = b := by
    rw [List.filterMap_append] at h2
    rw [show List.filterMap SStep.asOp [.refresh] = [] from rfl, List.append_nil, hb] at h2
    exact (Option.some.inj h2).symm
  have hn : L.noted p = some c := by
    rw [← hc, ← hLb]
    exact noted_last hT hdb hz hx steps hs rs h h1 (by rw [hLb]; exact hp)
  rw [← hLb] at hp
  rw [h4 p hp] at hw
  obtain ⟨A, B, rs1, y1, y2, L1, e1, e2, e3, e4, e5, e6, e7⟩ :=
    lost_before hT hdb hz hx _ (steps ++ [.refresh]) rfl hs' _ y L h h1 hn hw
  rcases List.eq_nil_or_concat B with hB | ⟨B', st, hB⟩
  · subst hB
    have : steps = A := (List.append_inj' e1 rfl).1
    subst this
    -- the last refresh returned `Ok`
    exfalso
    rw [runS_snoc] at h
    rw [e3] at h
    simp only [Option.bind_some, e4, Option.map_some, Option.some.injEq, Prod.mk.injEq] at h
    have := (List.append_inj' h.1 rfl).2
    simp at this
  · rw [List.concat_eq_append] at hB
    subst hB
    have : steps = A ++ .refresh :: B' ∧ [SStep.refresh] = [st] :=
      List.append_inj' (by rw [e1]; simp) rfl
    exact ⟨A, B', rs1, y1, y2, L1, this.1, fun z cell cur hm => e2 z cell cur
      (List.mem_append_left _ hm), e3, e4, e5, e6, e7⟩

/-- C20, a lost cell stays lost: when a refresh has failed at a cell, the terminal goes on showing
there what it showed, whatever is drawn and refreshed afterwards, as long as the cell has the same
content at each of those refreshes and the size does not change. -/
theorem C20_lost_stays {u : UEnv} (hT : TableOk u) {env : WEnv} (hdb : DrawDB env) {z : Size}
    (hz : ScreenSize z) {x y1 y2 y : Sess} (hx : Opened u env z x) (before after : List SStep)
    (hs : ∀ st ∈ before ++ .refresh :: after, NarrowStep u st) (rs1 rs2 : List Bool) {r : Bool}
    (h1 : runS u env before x = some (rs1, y1)) (h2 : SStep.refresh.run u env y1 = some (r, y2))
    (h3 : runS u env after y2 = some (rs2, y)) {L : Ledger} {p : Cursor}
    (hL : Ledger.follow u env before x (Ledger.start z) = some L)
    (hp : L.due[(handed y1 y2).length]? = some p)
    (hr : ∀ z cell cur, .resized z cell cur ∉ after)
    (hsame : ∀ a1 a2 b, after = a1 ++ .refresh :: a2 → runOps u (a1.filterMap SStep.asOp) L.buf = some b →
      cellAt b p = cellAt L.buf p) :
    y2.t.cell p = (if L.wipe then .narrow [' '] (clearInk y1) else y1.t.cell p) ∧
      y.t.cell p = y2.t.cell p := by
  obtain ⟨L0, bad, g1, g2, g3⟩ := tally_run hT hdb before [] x y1 rs1 (Ledger.start z)
    (opened_ninv hT hdb hz hx) (tally_start hT hdb hz hx)
    (fun st hst => hs st (List.mem_append_left _ hst)) h1
  rw [hL] at g1
  cases g1
  obtain ⟨L1, k1, k2, -⟩ := g2.step hT hdb g3 (st := .refresh) trivial h2
  obtain ⟨bad1, k3, -⟩ := g3.step hT hdb (st := .refresh) trivial h2
  cases k1
  have hin : InBounds p L.buf.size := due_in (grid_of g3 g2) (List.mem_of_getElem? hp)
  have hsz1 : y1.t.size = L.buf.size := by rw [g3.held.size, g2.buf]; rfl
  have hsz2 : y2.t.size = L.buf.size := by rw [k3.held.size, k2.buf]; rfl
  have hlost := lost_at u (clearInk y1) hp
  have e2 := k2.shown p (by rw [hsz2]; exact hin)
  refine ⟨by rw [e2, hlost.1, g2.shown p (by rw [hsz1]; exact hin)], ?_⟩
  obtain ⟨L2, bad2, m1, m2, m3⟩ := tally_run hT hdb after bad1 y2 y rs2 _ k3 k2
    (fun st hst => hs st (List.mem_append_right _ (List.mem_cons_of_mem _ hst))) h3
  obtain ⟨n1, n2⟩ := lost_stays hT.space env after y2 _ L2 m1
    (fun st hst => hs st (List.mem_append_right _ (List.mem_cons_of_mem _ hst))) hr hsame rfl hlost.2
  have hsz3 : y.t.size = L.buf.size := by rw [m3.held.size, m2.buf]; exact n2
  rw [m2.shown p (by rw [hsz3]; exact hin), e2, n1]

/-- The session of `C20_lost_cell_refuted`, for instance with 5000 accents, meets the hypotheses of
the theorems above, with a cell that is wrong. The first refresh has failed at that cell, having
handed over nothing. -/
example : ∃ x y : Sess, Opened demoEnv demoDB ⟨1, 1⟩ x ∧
    (∀ st ∈ [SStep.draw (.writeStr (longText 5000)), .refresh], NarrowStep demoEnv st) ∧
    runS demoEnv demoDB ([.draw (.writeStr (longText 5000)), .refresh] ++ [.refresh]) x =
      some ([true, false] ++ [true], y) ∧
    ∃ before after rs1 y1 y2 L,
      [SStep.draw (.writeStr (longText 5000)), .refresh] = before ++ .refresh :: after ∧
      runS demoEnv demoDB before x = some (rs1, y1) ∧
      SStep.refresh.run demoEnv demoDB y1 = some (false, y2) ∧
      Ledger.follow demoEnv demoDB before x (Ledger.start ⟨1, 1⟩) = some L ∧
      L.due = [⟨0, 0⟩] ∧ handed y1 y2 = [] := by
  obtain ⟨x, y, h1, h2, h3, h4, -⟩ := C20_lost_cell_refuted 5000 (by omega)
  have hch : ∀ ch ∈ longText 5000, ch = 'a' ∨ ch = '\u0301' := by
    intro ch hm
    rcases List.mem_cons.mp hm with h | h
    · exact Or.inl h
    · exact Or.inr (List.eq_of_mem_replicate h)
  have hs : ∀ st ∈ [SStep.draw (.writeStr (longText 5000)), .refresh], NarrowStep demoEnv st := by
    intro st hst
    rcases List.mem_cons.mp hst with rfl | hst
    · refine ⟨nofun, fun ch hm => ?_, fun ch hm hc => ?_⟩
      · rcases hch ch hm with rfl | rfl <;> decide
      · rcases hch ch hm with rfl | rfl
        · exact absurd hc (by decide)
        · decide
    · rw [List.mem_singleton.mp hst]; exact trivial
  have hz : ScreenSize ⟨1, 1⟩ := by unfold ScreenSize; decide
  refine ⟨x, y, h1, hs, h2, ?_⟩
  obtain ⟨b, hb1, hb2⟩ := opened_content h1 h2
  have hbs : y.s.buf.size = b.size := by rw [hb2]; rfl
  have hcell : cellAt b ⟨0, 0⟩ = some ⟨none, none, 0#8, longText 5000⟩ := by
    rw [hb2] at h3; exact h3
  have hb1' : runOps demoEnv ([SStep.draw (.writeStr (longText 5000)), .refresh].filterMap SStep.asOp)
      (Buf.new ⟨1, 1⟩) = some b := hb1
  have hsize : b.size = ⟨1, 1⟩ := by
    have : (BufOp.writeStr (longText 5000)).run demoEnv (Buf.new ⟨1, 1⟩) = some b := by
      have h : ((BufOp.writeStr (longText 5000)).run demoEnv (Buf.new ⟨1, 1⟩)).bind some = some b := hb1
      rw [Option.bind_eq_some_iff] at h
      obtain ⟨b', g, e⟩ := h
      cases e
      exact g
    exact (op_effect demo_table.space (by nofun) this).size
  obtain ⟨A, B, rs1, y1, y2, L, e1, -, e3, e4, e5, e6, -⟩ :=
    C20_wrong_only_if_lost demo_table demo_db hz h1 _ hs [true, false] h2 hb1' (p := ⟨0, 0⟩)
      (by rw [hsize]; decide) hcell (by
        rw [h4]
        intro e
        unfold picture at e
        split at e
        · cases e
        · have := (TCell.narrow.inj e).1
          have := congrArg List.length this
          unfold longText at this
          rw [List.length_cons, List.length_cons, List.length_replicate] at this
          cases this)
  have hA : ∃ B', A = [.draw (.writeStr (longText 5000))] ∧ B = B' := by
    match A, e1 with
    | [], e1 => cases e1
    | [a], e1 => cases e1; exact ⟨_, rfl, rfl⟩
    | a :: b :: A, e1 =>
      have := congrArg List.length e1
      simp at this
  obtain ⟨-, rfl, -⟩ := hA
  obtain ⟨L', f1, f2, f3, -⟩ := C20_exact demo_table demo_db hz h1 [.draw (.writeStr (longText 5000))]
    (fun st hst => hs st (by rw [List.mem_singleton.mp hst]; exact List.mem_cons_self)) rs1 e3
  rw [e5] at f1
  cases f1
  have hLs : L.buf.size = ⟨1, 1⟩ := by
    rw [show List.filterMap SStep.asOp [.draw (.writeStr (longText 5000))] =
      [SStep.draw (.writeStr (longText 5000)), .refresh].filterMap SStep.asOp from rfl, hb1'] at f2
    rw [← Option.some.inj f2]; exact hsize
  have hone : L.due.length ≤ 1 := by
    unfold Ledger.due
    refine Nat.le_trans (List.length_filter_le _ _) ?_
    rw [hLs]; decide
  have hk := (List.getElem?_eq_some_iff.mp e6).1
  have hk0 : (handed y1 y2).length = 0 := by omega
  rw [hk0] at e6
  refine ⟨_, B, rs1, y1, y2, L, e1, e3, e4, e5, ?_, List.length_eq_zero_iff.mp hk0⟩
  match hd : L.due, hone, e6 with
  | [q], _, e6 => simpa [hd] using e6

end Mortal
