import Verif.Lemmas.Ledger

/-!
# Lost cells
-/

namespace Mortal
open Spec

theorem runS_snoc (u : UEnv) (env : WEnv) (st : SStep) : ∀ (a : List SStep) (x : Sess),
    runS u env (a ++ [st]) x = (runS u env a x).bind fun v =>
      (st.run u env v.2).map fun w => (v.1 ++ [w.1], w.2)
  | [], x => by
    simp only [List.nil_append, runS, Option.bind_some]
    cases st.run u env x with
    | none => rfl
    | some v => rfl
  | s :: a, x => by
    rw [List.cons_append, runS, runS]
    cases h : s.run u env x with
    | none => rfl
    | some v =>
      obtain ⟨r, x'⟩ := v
      dsimp only
      rw [runS_snoc u env st a x']
      cases runS u env a x' with
      | none => rfl
      | some w =>
        obtain ⟨l, y⟩ := w
        simp only [Option.bind_some, Option.map_some]
        cases st.run u env y with
        | none => rfl
        | some v => rfl

theorem follow_snoc (u : UEnv) (env : WEnv) (st : SStep) : ∀ (a : List SStep) (x y y' : Sess)
    (rs : List Bool) (r : Bool) (L : Ledger), runS u env a x = some (rs, y) →
    st.run u env y = some (r, y') →
    Ledger.follow u env (a ++ [st]) x L = (Ledger.follow u env a x L).bind fun L1 =>
      L1.step u (handed y y').length (clearInk y) st
  | [], x, y, y', rs, r, L, e1, e2 => by
    simp only [runS, Option.some.injEq, Prod.mk.injEq] at e1
    obtain ⟨rfl, rfl⟩ := e1
    simp only [List.nil_append, Ledger.follow, e2, Option.bind_some]
    cases L.step u (handed x y').length (clearInk x) st <;> rfl
  | s :: a, x, y, y', rs, r, L, e1, e2 => by
    rw [runS] at e1
    rw [List.cons_append, Ledger.follow, Ledger.follow]
    cases h : s.run u env x with
    | none => rw [h] at e1; cases e1
    | some v =>
      obtain ⟨r1, x'⟩ := v
      rw [h] at e1
      dsimp only at e1
      rw [Option.map_eq_some_iff] at e1
      obtain ⟨⟨l, y1⟩, e3, e4⟩ := e1
      cases e4
      simp only [Option.bind_some]
      cases h1 : L.step u (handed x x').length (clearInk x) s with
      | none => rfl
      | some L1 =>
        simp only [Option.bind_some]
        exact follow_snoc u env st a x' _ y' l r L1 e3 e2

/-- The drawing calls act on the bookkeeping's buffer as on any other. -/
theorem follow_buf (u : UEnv) (env : WEnv) : ∀ (steps : List SStep) (x : Sess) (L L' : Ledger),
    Ledger.follow u env steps x L = some L' →
    runOps u (steps.filterMap SStep.asOp) L.buf = some L'.buf
  | [], _, L, L', e => by cases e; rfl
  | st :: rest, x, L, L', e => by
    rw [Ledger.follow, Option.bind_eq_some_iff] at e
    obtain ⟨⟨r, y⟩, -, e⟩ := e
    dsimp only at e
    rw [Option.bind_eq_some_iff] at e
    obtain ⟨L1, e1, e2⟩ := e
    have ih := follow_buf u env rest y L1 L' e2
    cases st with
    | draw op =>
      have e1 : (op.run u L.buf).map _ = some L1 := e1
      rw [Option.map_eq_some_iff] at e1
      obtain ⟨b, e3, rfl⟩ := e1
      show (op.run u L.buf).bind _ = _
      rw [e3]; exact ih
    | refresh =>
      cases e1
      exact ih
    | resized z cell cur =>
      have e1 : ((BufOp.resize z).run u L.buf).map _ = some L1 := e1
      rw [Option.map_eq_some_iff] at e1
      obtain ⟨b, e3, rfl⟩ := e1
      show ((BufOp.resize z).run u L.buf).bind _ = _
      rw [e3]; exact ih

theorem allCells_nodup (z : Size) : (allCells z).Nodup := by
  unfold allCells List.Nodup
  rw [List.pairwise_map]
  refine List.nodup_range.imp fun {a b} h e => h ?_
  have := congrArg (numOf z) e
  rwa [numOf_posOf, numOf_posOf] at this

theorem due_in {L : Ledger} (hg : GoodSize L.buf.size) {p : Cursor} (h : p ∈ L.due) :
    InBounds p L.buf.size := by
  unfold Ledger.due allCells at h
  obtain ⟨j, hj, rfl⟩ := List.mem_map.mp (List.mem_filter.mp h).1
  exact (inBounds_posOf hg).mpr (List.mem_range.mp hj)

theorem mem_due {L : Ledger} {p : Cursor} (hp : InBounds p L.buf.size)
    (h : cellAt L.buf p ≠ L.noted p) : p ∈ L.due := by
  unfold Ledger.due allCells
  refine List.mem_filter.mpr ⟨List.mem_map.mpr ⟨numOf L.buf.size p, ?_, posOf_numOf hp⟩, by simpa using h⟩
  exact List.mem_range.mpr (numOf_lt hp)

theorem not_due {L : Ledger} {p : Cursor} (h : cellAt L.buf p = L.noted p) : p ∉ L.due := by
  unfold Ledger.due
  intro hm
  have := (List.mem_filter.mp hm).2
  simp [h] at this

theorem grid_of {u : UEnv} {env : WEnv} {bad : List Nat} {x : Sess} {L : Ledger}
    (h : NInv u env bad x) (t : Tally x L) : GoodSize L.buf.size := by
  have : x.s.buf.size = L.buf.size := by rw [t.buf]; rfl
  rw [← this]; exact h.held.grid.size

/-- A refresh that ends at the cell `p`. -/
theorem lost_at (u : UEnv) (ink : DevAttrs) {L : Ledger} {n : Nat} {p : Cursor}
    (h : L.due[n]? = some p) :
    (L.refreshed u n ink).shown p = (if L.wipe then .narrow [' '] ink else L.shown p) ∧
      (L.refreshed u n ink).noted p = cellAt L.buf p := by
  have hnd : L.due.Nodup := (allCells_nodup _).filter _
  obtain ⟨hlt, hget⟩ := List.getElem?_eq_some_iff.mp h
  have h1 : p ∉ L.due.take n := by
    intro hm
    obtain ⟨i, hi, e⟩ := List.mem_iff_getElem.mp hm
    rw [List.length_take] at hi
    rw [List.getElem_take, ← hget] at e
    exact List.pairwise_iff_getElem.mp hnd i n (by omega) hlt (by omega) e
  have h2 : p ∈ L.due.take (n + 1) := by
    rw [List.take_add_one, h]
    simp
  constructor
  · show (if p ∈ L.due.take n then _ else _) = _
    rw [if_neg h1]
  · show (if p ∈ L.due.take (n + 1) then _ else _) = _
    rw [if_pos h2]

/-- A cell noted with its content is not touched. -/
theorem lost_stays {u : UEnv} (hu : SpaceOk u) (env : WEnv) {p : Cursor} {c : Option Cell} :
    ∀ (steps : List SStep) (x : Sess) (L L' : Ledger),
    Ledger.follow u env steps x L = some L' → (∀ st ∈ steps, NarrowStep u st) →
    (∀ z cell cur, .resized z cell cur ∉ steps) →
    (∀ a1 a2 b, steps = a1 ++ .refresh :: a2 → runOps u (a1.filterMap SStep.asOp) L.buf = some b →
      cellAt b p = c) →
    L.wipe = false → L.noted p = c → L'.shown p = L.shown p ∧ L'.buf.size = L.buf.size
  | [], _, L, L', e, _, _, _, _, _ => by cases e; exact ⟨rfl, rfl⟩
  | st :: rest, x, L, L', e, hs, hr, hsame, hw, hn => by
    rw [Ledger.follow, Option.bind_eq_some_iff] at e
    obtain ⟨⟨r, y⟩, -, e⟩ := e
    dsimp only at e
    rw [Option.bind_eq_some_iff] at e
    obtain ⟨L1, e1, e2⟩ := e
    have hs' : ∀ st ∈ rest, NarrowStep u st := fun s h => hs s (List.mem_cons_of_mem _ h)
    have hr' : ∀ z cell cur, .resized z cell cur ∉ rest := fun z cell cur h =>
      hr z cell cur (List.mem_cons_of_mem _ h)
    cases st with
    | draw op =>
      have e1 : (op.run u L.buf).map _ = some L1 := e1
      rw [Option.map_eq_some_iff] at e1
      obtain ⟨b, e3, rfl⟩ := e1
      have hop := (hs _ List.mem_cons_self).1
      have heff := op_effect hu hop e3
      obtain ⟨g1, g2⟩ := lost_stays hu env rest y _ L' e2 hs' hr' (fun a1 a2 b' h1 h2 => by
        refine hsame (.draw op :: a1) a2 b' (by rw [h1]; rfl) ?_
        show (op.run u L.buf).bind _ = _
        rw [e3]; exact h2) hw hn
      exact ⟨g1, g2.trans heff.size⟩
    | refresh =>
      cases e1
      have hc : cellAt L.buf p = c := hsame [] rest L.buf rfl rfl
      have hnot : p ∉ L.due := not_due (by rw [hc, hn])
      have s1 : ∀ n ink, (L.refreshed u n ink).shown p = L.shown p := fun n ink => by
        show (if p ∈ L.due.take n then _ else if L.wipe = true then _ else _) = _
        rw [if_neg (fun h => hnot (List.mem_of_mem_take h)), hw]; rfl
      have s2 : ∀ n ink, (L.refreshed u n ink).noted p = c := fun n ink => by
        show (if p ∈ L.due.take (n + 1) then _ else _) = _
        rw [if_neg (fun h => hnot (List.mem_of_mem_take h)), hn]
      obtain ⟨g1, g2⟩ := lost_stays hu env rest y _ L' e2 hs' hr' (fun a1 a2 b' h1 h2 =>
        hsame (.refresh :: a1) a2 b' (by rw [h1]; rfl) h2) rfl (s2 _ _)
      exact ⟨g1.trans (s1 _ _), g2⟩
    | resized z cell cur => exact absurd List.mem_cons_self (hr z cell cur)

/-- After a refresh that returned `Ok` every cell is noted with its content. -/
theorem noted_last {u : UEnv} (hT : TableOk u) {env : WEnv} (hdb : DrawDB env) {z : Size}
    (hz : ScreenSize z) {x y : Sess} (hx : Opened u env z x) (steps : List SStep)
    (hs : ∀ st ∈ steps, NarrowStep u st) (rs : List Bool)
    (h : runS u env (steps ++ [.refresh]) x = some (rs ++ [true], y)) {L : Ledger}
    (hL : Ledger.follow u env (steps ++ [.refresh]) x (Ledger.start z) = some L) {p : Cursor}
    (hp : InBounds p L.buf.size) : L.noted p = cellAt L.buf p := by
  rw [runS_snoc, Option.bind_eq_some_iff] at h
  obtain ⟨⟨rs1, y1⟩, h1, h⟩ := h
  rw [Option.map_eq_some_iff] at h
  obtain ⟨⟨r, y2⟩, h2, h⟩ := h
  simp only [Prod.mk.injEq] at h
  obtain ⟨h3, rfl⟩ := h
  have hr : r = true := by
    have := (List.append_inj' h3 rfl).2
    simpa using this
  subst hr
  obtain ⟨L0, bad, g1, g2, g3⟩ := tally_run hT hdb steps [] x y1 rs1 (Ledger.start z)
    (opened_ninv hT hdb hz hx) (tally_start hT hdb hz hx) hs h1
  obtain ⟨L1, k1, k2, k3⟩ := g2.step hT hdb g3 (st := .refresh) trivial h2
  rw [follow_snoc u env .refresh steps x y1 y2 rs1 true _ h1 h2, g1, Option.bind_some, k1] at hL
  cases hL
  cases k1
  have hn := (k3 rfl).2.2 rfl
  rw [hn] at hp ⊢
  show (if p ∈ L0.due.take (L0.due.length + 1) then cellAt L0.buf p else L0.noted p) = cellAt L0.buf p
  rw [List.take_of_length_le (Nat.le_succ _)]
  by_cases hm : p ∈ L0.due
  · rw [if_pos hm]
  · rw [if_neg hm]
    exact Classical.byContradiction fun e => hm (mem_due hp (fun e' => e e'.symm))

/-- While the terminal is to be cleared nothing is noted. -/
theorem wipe_noted (u : UEnv) (env : WEnv) : ∀ (steps : List SStep) (x : Sess) (L L' : Ledger),
    (L.wipe = true → ∀ p, L.noted p = none) → Ledger.follow u env steps x L = some L' →
    L'.wipe = true → ∀ p, L'.noted p = none
  | [], _, L, L', h, e => by cases e; exact h
  | st :: rest, x, L, L', h, e => by
    rw [Ledger.follow, Option.bind_eq_some_iff] at e
    obtain ⟨⟨r, y⟩, -, e⟩ := e
    dsimp only at e
    rw [Option.bind_eq_some_iff] at e
    obtain ⟨L1, e1, e2⟩ := e
    refine wipe_noted u env rest y L1 L' ?_ e2
    cases st with
    | draw op =>
      have e1 : (op.run u L.buf).map _ = some L1 := e1
      rw [Option.map_eq_some_iff] at e1
      obtain ⟨b, e3, rfl⟩ := e1
      exact h
    | refresh => cases e1; intro e; cases e
    | resized z cell cur =>
      have e1 : ((BufOp.resize z).run u L.buf).map _ = some L1 := e1
      rw [Option.map_eq_some_iff] at e1
      obtain ⟨b, e3, rfl⟩ := e1
      exact fun _ _ => rfl

/-- A cell noted with a content it does not show has been lost by an earlier refresh. -/
theorem lost_before {u : UEnv} (hT : TableOk u) {env : WEnv} (hdb : DrawDB env) {z : Size}
    (hz : ScreenSize z) {x : Sess} (hx : Opened u env z x) {p : Cursor} {c : Cell} :
    ∀ (m : Nat) (steps : List SStep), steps.length = m → (∀ st ∈ steps, NarrowStep u st) →
    ∀ (rs : List Bool) (y : Sess) (L : Ledger), runS u env steps x = some (rs, y) →
    Ledger.follow u env steps x (Ledger.start z) = some L →
    L.noted p = some c → L.shown p ≠ picture u c →
    ∃ before after rs1 y1 y2 L1, steps = before ++ .refresh :: after ∧
      (∀ z cell cur, .resized z cell cur ∉ after) ∧
      runS u env before x = some (rs1, y1) ∧ SStep.refresh.run u env y1 = some (false, y2) ∧
      Ledger.follow u env before x (Ledger.start z) = some L1 ∧
      L1.due[(handed y1 y2).length]? = some p ∧ cellAt L1.buf p = some c := by
  intro m
  induction m with
  | zero =>
    intro steps hm hs rs y L h hL hn hw
    rw [List.length_eq_zero_iff] at hm
    subst hm
    cases hL
    exfalso
    apply hw
    have : c = ⟨none, none, 0#8, [' ']⟩ := (Option.some.inj hn).symm
    subst this
    rw [picture_eq]
    unfold pic
    rw [not_wide_of_head_space hT.space rfl]
    rfl
  | succ m ih =>
    intro steps hm hs rs y L h hL hn hw
    rcases List.eq_nil_or_concat steps with rfl | ⟨A, st, rfl⟩
    · cases hm
    rw [List.concat_eq_append] at *
    have hA : A.length = m := by simpa using hm
    have hsA : ∀ st ∈ A, NarrowStep u st := fun s h => hs s (List.mem_append_left _ h)
    rw [runS_snoc, Option.bind_eq_some_iff] at h
    obtain ⟨⟨rs1, y1⟩, h1, h⟩ := h
    rw [Option.map_eq_some_iff] at h
    obtain ⟨⟨r, y2⟩, h2, h⟩ := h
    dsimp only at h2
    simp only [Prod.mk.injEq] at h
    obtain ⟨-, rfl⟩ := h
    obtain ⟨L0, bad, g1, g2, g3⟩ := tally_run hT hdb A [] x y1 rs1 (Ledger.start z)
      (opened_ninv hT hdb hz hx) (tally_start hT hdb hz hx) hsA h1
    have hL' := hL
    rw [follow_snoc u env st A x y1 y2 rs1 r _ h1 h2, g1, Option.bind_some] at hL
    have more : L0.noted p = some c → L0.shown p ≠ picture u c → (∀ z cell cur, st ≠ .resized z cell cur) →
        ∃ before after rs1 y1 y2 L1, A ++ [st] = before ++ .refresh :: after ∧
          (∀ z cell cur, .resized z cell cur ∉ after) ∧
          runS u env before x = some (rs1, y1) ∧ SStep.refresh.run u env y1 = some (false, y2) ∧
          Ledger.follow u env before x (Ledger.start z) = some L1 ∧
          L1.due[(handed y1 y2).length]? = some p ∧ cellAt L1.buf p = some c := by
      intro a b hst
      obtain ⟨B, C, q1, q2, q3, q4, e1, e2, e3, e4, e5, e6, e7⟩ := ih A hA hsA rs1 y1 L0 h1 g1 a b
      refine ⟨B, C ++ [st], q1, q2, q3, q4, by rw [e1]; simp, fun z cell cur hm => ?_, e3, e4, e5,
        e6, e7⟩
      rcases List.mem_append.mp hm with hm | hm
      · exact e2 z cell cur hm
      · exact hst z cell cur (List.mem_singleton.mp hm).symm
    cases st with
    | draw op =>
      have hL : (op.run u L0.buf).map _ = some L := hL
      rw [Option.map_eq_some_iff] at hL
      obtain ⟨b, e3, rfl⟩ := hL
      exact more hn hw nofun
    | resized z cell cur =>
      have hL : ((BufOp.resize z).run u L0.buf).map _ = some L := hL
      rw [Option.map_eq_some_iff] at hL
      obtain ⟨b, e3, rfl⟩ := hL
      cases hn
    | refresh =>
      obtain ⟨L1, k1, k2, k3⟩ := g2.step hT hdb g3 (st := .refresh) trivial h2
      cases hL
      obtain ⟨-, a2, a3⟩ := k3 rfl
      generalize hk : (handed y1 y2).length = k at *
      have hn : (if p ∈ L0.due.take (k + 1) then cellAt L0.buf p else L0.noted p) = some c := hn
      have hw : (if p ∈ L0.due.take k then ((cellAt L0.buf p).map (picture u)).getD .torn
        else if L0.wipe = true then .narrow [' '] (clearInk y1) else L0.shown p) ≠ picture u c := hw
      by_cases hm : p ∈ L0.due.take k
      · rw [if_pos hm] at hw
        have hm' : p ∈ L0.due.take (k + 1) := by
          rw [List.take_add_one]; exact List.mem_append_left _ hm
        rw [if_pos hm'] at hn
        rw [hn] at hw
        exact absurd rfl hw
      · rw [if_neg hm] at hw
        by_cases hm' : p ∈ L0.due.take (k + 1)
        · rw [if_pos hm'] at hn
          have hd : L0.due[k]? = some p := by
            rw [List.take_add_one] at hm'
            rcases List.mem_append.mp hm' with h | h
            · exact absurd h hm
            · simpa using h
          have hr : r = false := by
            cases r with
            | false => rfl
            | true =>
              have := (List.getElem?_eq_some_iff.mp hd).1
              have := a3 rfl
              omega
          subst hr
          exact ⟨A, [], rs1, y1, y2, L0, rfl, nofun, h1, h2, g1, by rw [hk]; exact hd, hn⟩
        · rw [if_neg hm'] at hn
          cases hwp : L0.wipe with
          | true =>
            have := wipe_noted u env A x (Ledger.start z) L0 nofun g1 hwp p
            rw [this] at hn; cases hn
          | false =>
            rw [hwp] at hw
            exact more hn (by simpa using hw) nofun

end Mortal
