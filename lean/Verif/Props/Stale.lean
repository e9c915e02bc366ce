import Verif.Lemmas.Stale
import Verif.Props.Screen

/-!
# Screens with two-column characters: exactly what is wrong, and when (C18)

`Spec/Stale.lean` describes what successive refreshes leave on a terminal, without the screen.
-/

namespace Mortal
open Spec

/-- C18 with two-column characters, also when cells are uncovered with the content they were last drawn
with: after any number of drawing calls, refreshes and resizes, all successful, every cell of the
terminal shows what the description says. That is its content, except for the right halves and for the
stale cells, which show a torn character. The cursor is right unless it is wanted in a right half; the
attributes are reset and all output is delivered. Two-column characters must fit into the line, and no
stale cell may be about to hold one. -/
theorem C18_wide_exact {u : UEnv} (hT : TableOk u) {env : WEnv} (hdb : DrawDB env) {z : Size}
    (hz : ScreenSize z) {x y : Sess} (hx : Opened u env z x) (steps : List SStep)
    (hs : TameRun u (Glass.new z) (steps ++ [.refresh])) (rs : List Bool) (hr : ∀ r ∈ rs, r = true)
    (h : runS u env (steps ++ [.refresh]) x = some (rs ++ [true], y)) :
    ∃ g, (Glass.new z).run u steps = some g ∧
      runOps u (steps.filterMap SStep.asOp) (Buf.new z) = some g.b ∧ y.t.size = g.b.size ∧
      (∀ p, InBounds p g.b.size → y.t.cell p = (g.refresh u).shown p) ∧
      (¬ RightHalf u g.b (target g.b) → y.t.cur = some (target g.b)) ∧
      y.t.attrs = .plain ∧ y.s.w.pending = [] ∧ y.s.w.dev = logBytes env y.s.w.log := by
  obtain ⟨g, X, q1, a1, g1, hp⟩ := glass_end hT hdb hz hx hs hr h
  have hsame : y.s.buf = g.b.wb y.s.buf.back := g1.same
  have hsz : y.s.buf.size = g.b.size := g1.size
  have hface : ∀ p, InBounds p g.b.size → y.t.cell p = (g.refresh u).shown p := g1.face a1.noClear
  have htg : target y.s.buf = target g.b := by rw [hsame]; rfl
  refine ⟨g, q1, glass_content u steps _ g q1, a1.size.trans hsz, hface, fun hn => ?_,
    by rw [a1.lk.term, a1.plain]; rfl, hp, delivered_all g1.dlv hp⟩
  have := a1.atTarget
  rw [htg] at this
  apply this
  have hin : InBounds (target g.b) g.b.size := by
    rw [← hsz, ← htg]; exact target_in a1.grid.size
  rw [hface _ hin]
  unfold Glass.refresh
  dsimp only
  rw [if_neg hn]
  split
  · intro e; cases e
  · cases cellAt g.b (target g.b) with
    | none => intro e; cases e
    | some c =>
      show picture u c ≠ _
      unfold picture
      split <;> (intro e; cases e)

/-- C18. In these sessions the terminal shows the buffer after the refresh if and only if no cell was
stale before it. -/
theorem C18_wide_iff {u : UEnv} (hT : TableOk u) {env : WEnv} (hdb : DrawDB env) {z : Size}
    (hz : ScreenSize z) {x y : Sess} (hx : Opened u env z x) (steps : List SStep)
    (hs : TameRun u (Glass.new z) (steps ++ [.refresh])) (rs : List Bool) (hr : ∀ r ∈ rs, r = true)
    (h : runS u env (steps ++ [.refresh]) x = some (rs ++ [true], y)) :
    ∃ g, (Glass.new z).run u steps = some g ∧
      runOps u (steps.filterMap SStep.asOp) (Buf.new z) = some g.b ∧
      (Displays u y.t g.b ↔ ∀ p, ¬ Stale u g p) := by
  obtain ⟨g, X, h1, h2, h3, -⟩ := glass_end hT hdb hz hx hs hr h
  have hface : ∀ p, InBounds p g.b.size → y.t.cell p = (g.refresh u).shown p := h3.face h2.noClear
  refine ⟨g, h1, glass_content u steps _ g h1, fun hd p hp => ?_,
    fun hn => ⟨h2.size.trans h3.size, fun p c hin hc => ?_⟩⟩
  · have h5 := hface p hp.1
    unfold Glass.refresh at h5
    dsimp only at h5
    rw [if_neg hp.2.1, if_pos hp] at h5
    obtain ⟨c, hc⟩ := h3.toGCore.some_cell (p := p) hp.1
    have hc : cellAt g.b p = some c := hc
    have := hd.2 p c hp.1 hc
    rw [if_neg hp.2.1, h5] at this
    unfold picture at this
    split at this <;> cases this
  · rw [hface p hin]
    unfold Glass.refresh
    dsimp only
    split
    · rfl
    · rw [if_neg (hn p), hc]
      rfl

/-! ### A concrete case -/

/-- The screen of the case. -/
def staleBuf (l : List (List Char)) (c : Cursor) : Buf :=
  { Buf.new ⟨1, 4⟩ with buffer := l.map fun t => ⟨none, none, 0#8, t⟩, cursor := c }

theorem stale_run1 : (BufOp.writeAt ⟨0, 0⟩ ['a', 'x']).run demoEnv (Buf.new ⟨1, 4⟩) =
    some (staleBuf [['a'], ['x'], [' '], [' ']] ⟨0, 2⟩) := by decide +kernel

theorem stale_run2 : (BufOp.writeAt ⟨0, 0⟩ ['世']).run demoEnv
    (staleBuf [['a'], ['x'], [' '], [' ']] ⟨0, 2⟩) =
    some (staleBuf [['世'], [' '], [' '], [' ']] ⟨0, 2⟩) := by decide +kernel

theorem stale_run3 : (BufOp.writeAt ⟨0, 0⟩ ['a', 'x']).run demoEnv
    (staleBuf [['世'], [' '], [' '], [' ']] ⟨0, 2⟩) =
    some (staleBuf [['a'], ['x'], [' '], [' ']] ⟨0, 2⟩) := by decide +kernel

open Classical in
/-- Two one-column characters, one two-column character, and the two again: the second of the two is
stale then. `A` and `W` are the contents of the screen. -/
theorem stale_steps {z : Size} {A W : Buf} (hz : 2 ≤ z.columns) (hl : 0 < z.lines)
    (r1 : (BufOp.writeAt ⟨0, 0⟩ ['a', 'x']).run demoEnv (Buf.new z) = some A)
    (r2 : (BufOp.writeAt ⟨0, 0⟩ ['世']).run demoEnv A = some W)
    (r3 : (BufOp.writeAt ⟨0, 0⟩ ['a', 'x']).run demoEnv W = some A) (zA : A.size = z) (zW : W.size = z)
    (hA : ∀ c ∈ A.buffer, c.isWide demoEnv = false) {c0 : Cell} (hA0 : cellAt A ⟨0, 0⟩ = some c0)
    (hW : ∀ n c, W.buffer[n]? = some c → c.isWide demoEnv = true → n = 0) {c1 : Cell}
    (hW0 : cellAt W ⟨0, 0⟩ = some c1) (hc1 : HoldsWide demoEnv c1)
    (hs : SafeOp demoEnv A (.writeAt ⟨0, 0⟩ ['世'])) :
    TameRun demoEnv (Glass.new z) (staleSteps ++ [.refresh]) ∧
    ∃ g, (Glass.new z).run demoEnv staleSteps = some g ∧ Stale demoEnv g ⟨0, 1⟩ := by
  have hn : ∀ b : Buf, b.size = z → TameStep demoEnv ⟨b, fun _ => .torn, fun _ => none⟩
      (.draw (.writeAt ⟨0, 0⟩ ['a', 'x'])) := fun b hb =>
    ⟨nofun, safeOp_narrow (op := .writeAt ⟨0, 0⟩ ['a', 'x']) demo_table nofun (by decide) (by rw [hb]; omega), by unfold ThinMarks; decide⟩
  have hAn : ∀ {p c}, cellAt A p = some c → ¬ HoldsWide demoEnv c := by
    intro p c h hw
    have := hA c (List.mem_of_getElem? h)
    rw [isWide_iff.mpr hw] at this
    cases this
  have hfirst : ∀ b : Buf, ¬ RightHalf demoEnv b ⟨0, 0⟩ := fun b h => by
    have := h.1
    dsimp only at this
    omega
  constructor
  · refine ⟨hn _ rfl, fun g1 e1 => ?_⟩
    simp only [Glass.step, Glass.new, r1, Option.map_some, Option.some.injEq] at e1
    subst e1
    refine ⟨fun p c hs => ?_, fun g2 e2 => ?_⟩
    · rcases hs.2.2.1 with e | e <;> cases e
    cases e2
    refine ⟨⟨nofun, hs, by unfold ThinMarks; decide⟩, fun g3 e3 => ?_⟩
    simp only [Glass.step, Glass.refresh, r2, Option.map_some, Option.some.injEq] at e3
    subst e3
    refine ⟨fun p c hs hc => ?_, fun g4 e4 => ?_⟩
    · -- the two-column character is in the corner, which is not covered
      intro hw
      have hp : numOf W.size p = 0 := hW _ c hc (isWide_iff.mpr hw)
      obtain ⟨h1, -, h3, -⟩ := hs
      have hcl : p.column < W.size.columns := h1.2
      obtain rfl : p = ⟨0, 0⟩ := by
        obtain ⟨l, k⟩ := p
        unfold numOf at hp
        dsimp only at hp hcl
        rw [zW] at hp hcl
        have hk : k = 0 := by omega
        have hl0 : l = 0 := by
          rcases Nat.eq_zero_or_pos l with h | h
          · exact h
          · have := Nat.mul_pos (show 0 < z.columns by omega) h
            have h' : z.columns * l = 0 ∨ l * z.columns = 0 := by
              first
              | exact Or.inl (by omega)
              | exact Or.inr (by omega)
            rcases h' with h' | h'
            · omega
            · rw [Nat.mul_comm] at h'; omega
        subst hk; subst hl0; rfl
      dsimp only at h3
      rw [if_neg (hfirst A), if_neg (fun h => by rcases h.2.2.1 with e | e <;> cases e), hA0] at h3
      have h3 : picture demoEnv c0 = _ ∨ picture demoEnv c0 = _ := h3
      unfold picture at h3
      split at h3 <;> (rcases h3 with e | e <;> cases e)
    cases e4
    refine ⟨hn W zW, fun g5 e5 => ?_⟩
    simp only [Glass.step, Glass.refresh, r3, Option.map_some, Option.some.injEq] at e5
    subst e5
    exact ⟨fun p c _ hc => hAn hc, fun _ _ => trivial⟩
  · refine ⟨{ (({ (({ Glass.new z with b := A } : Glass).refresh demoEnv) with
        b := W } : Glass).refresh demoEnv) with b := A }, ?_, ?_⟩
    · unfold staleSteps
      simp only [Glass.run, Glass.step, Glass.new, Glass.refresh, r1, r2, r3,
        Option.map_some, Option.bind_some]
      rfl
    · have hr1 : ¬ RightHalf demoEnv A ⟨0, 1⟩ := by
        rintro ⟨-, c, h1, h2⟩
        exact hAn h1 h2
      have hr2 : RightHalf demoEnv W ⟨0, 1⟩ := ⟨Nat.zero_lt_one, c1, hW0, hc1⟩
      refine ⟨⟨by show 0 < A.size.lines; rw [zA]; exact hl, by show 1 < A.size.columns; rw [zA]; exact hz⟩,
        hr1, Or.inl ?_, ?_⟩
      · show (if RightHalf demoEnv W ⟨0, 1⟩ then _ else _) = _
        rw [if_pos hr2]
      · show (if RightHalf demoEnv W ⟨0, 1⟩ then
          (if RightHalf demoEnv A ⟨0, 1⟩ then _ else _) else _) = _
        rw [if_pos hr2, if_neg hr1]

/-- A list has two-column characters only at its start. -/
theorem wide_first {c : Cell} {l : List Cell} (h : ∀ a ∈ l, a.isWide demoEnv = false) (n : Nat) (a : Cell)
    (e : (c :: l)[n]? = some a) (hw : a.isWide demoEnv = true) : n = 0 := by
  cases n with
  | zero => rfl
  | succ n =>
    rw [h a (List.mem_of_getElem? e)] at hw
    cases hw

/-- The steps that leave the terminal wrong (`C18_stale_refuted`) are such a session: before the last
refresh the cell that is to show the `x` again is stale. -/
theorem stale_case : TameRun demoEnv (Glass.new ⟨1, 4⟩) (staleSteps ++ [.refresh]) ∧
    ∃ g, (Glass.new ⟨1, 4⟩).run demoEnv staleSteps = some g ∧ Stale demoEnv g ⟨0, 1⟩ :=
  stale_steps (by decide) (by decide) stale_run1 stale_run2 stale_run3 rfl rfl (by decide) rfl
    (wide_first (by decide)) rfl ⟨'世', [], rfl, by decide⟩ ⟨by decide, by decide, fun _ _ => trivial⟩

end Mortal
