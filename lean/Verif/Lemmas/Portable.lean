import Verif.Spec.Portable
import Verif.Spec.WinLive
import Verif.Lemmas.WinStale

namespace Mortal
open Spec

theorem sameLook_view (default : BitVec 16) (fg bg : Option Color) (style : Style) :
    sameLook default (view ⟨fg, bg, style⟩) = wantedLook default fg bg style := by
  have h : ∀ c, ansiRGB (ansi c) = rgb c := by intro c; cases c <;> rfl
  cases fg <;> cases bg <;> simp [sameLook, wantedLook, view, h]

/-- What a screen leaves on both systems, with the places `S` torn. -/
theorem samePicture_of {u : UEnv} {default : BitVec 16} {t : Term} {o : OutBuf} {b : Buf}
    {S : Cursor → Prop}
    (hcell : ∀ p, InBounds p b.size → ∃ c, cellAt b p = some c)
    (ht : t.size = b.size) (ho : o.glyph.size = b.size)
    (hU : ∀ p c, InBounds p b.size → cellAt b p = some c →
      (RightHalf u b p → t.cell p = .right) ∧ (S p → t.cell p = .torn) ∧
      (¬ RightHalf u b p → ¬ S p → t.cell p = picture u c))
    (hW : ∀ p c, InBounds p b.size → cellAt b p = some c →
      (S p → o.glyph.cell p = .torn) ∧
      (¬ RightHalf u b p → ¬ S p → o.glyph.cell p = glyphOf u c ∧ Dressed default (o.attr p) c) ∧
      (RightHalf u b p → o.glyph.cell p = .right ∧
        ∀ l, cellAt b ⟨p.line, p.column - 1⟩ = some l → Dressed default (o.attr p) l)) :
    SamePicture default t o := by
  have key : ∀ p a, InBounds p b.size → t.cell p = a → a ≠ .right → a ≠ .torn →
      ∃ c, cellAt b p = some c ∧ a = picture u c ∧ Dressed default (o.attr p) c := by
    intro p a hin h1 h2 h3
    obtain ⟨c, hc⟩ := hcell p hin
    obtain ⟨u1, u2, u3⟩ := hU p c hin hc
    have n1 : ¬ RightHalf u b p := fun h => h2 (h1.symm.trans (u1 h))
    have n2 : ¬ S p := fun h => h3 (h1.symm.trans (u2 h))
    exact ⟨c, hc, h1.symm.trans (u3 n1 n2), ((hW p c hin hc).2.1 n1 n2).2⟩
  have look : ∀ {w c}, Dressed default w c → lookOf w = sameLook default (view ⟨c.fg, c.bg, c.style⟩) :=
    fun h => h.trans (sameLook_view _ _ _ _).symm
  refine ⟨ho.trans ht.symm, fun p hin => ?_, fun p x d hin h => ?_, fun p x d hin h => ?_⟩
  · rw [ht] at hin
    obtain ⟨c, hc⟩ := hcell p hin
    obtain ⟨u1, u2, u3⟩ := hU p c hin hc
    obtain ⟨w1, w2, w3⟩ := hW p c hin hc
    by_cases hr : RightHalf u b p
    · rw [u1 hr, (w3 hr).1]; rfl
    · by_cases hs : S p
      · rw [u2 hs, w1 hs]; rfl
      · rw [u3 hr hs, (w2 hr hs).1]
        unfold glyphOf picture
        split <;> rfl
  · rw [ht] at hin
    obtain ⟨c, -, h1, h2⟩ := key p _ hin h nofun nofun
    unfold picture at h1
    split at h1
    · cases h1
    · cases h1; exact look h2
  · rw [ht] at hin ⊢
    obtain ⟨c, hc, h1, h2⟩ := key p _ hin h nofun nofun
    unfold picture at h1
    split at h1
    · rename_i hw
      cases h1
      refine ⟨look h2, fun hin' => ?_⟩
      obtain ⟨c', hc'⟩ := hcell _ hin'
      exact look (((hW _ c' hin' hc').2.2 ⟨Nat.succ_pos _, c, hc, hw⟩).2 c hc)
    · cases h1

/-- The description does not depend on what the terminal shows after a change of its size. -/
theorem glass_step_bare (u : UEnv) (g : Glass) (st : SStep) : g.step u st.bare = g.step u st := by
  cases st <;> rfl

theorem glass_run_bare (u : UEnv) (steps : List SStep) : ∀ g : Glass,
    g.run u (steps.map SStep.bare) = g.run u steps := by
  induction steps with
  | nil => intro g; rfl
  | cons st rest ih =>
    intro g
    simp only [List.map_cons, Glass.run, glass_step_bare, ih]

theorem tame_bare {u : UEnv} (steps : List SStep) : ∀ {g : Glass}, TameRun u g steps →
    TameRun u g (steps.map SStep.bare) := by
  induction steps with
  | nil => intro g _; trivial
  | cons st rest ih =>
    intro g h
    refine ⟨?_, fun g' h' => ih (h.2 g' (by rw [← glass_step_bare]; exact h'))⟩
    cases st with
    | draw op => exact h.1
    | refresh => exact h.1
    | resized z cell cur =>
      refine ⟨h.1.1, h.1.2.1, ?_⟩
      unfold Term.Paired
      simp

/-- A sound grid has a cell at every place. -/
theorem grid_cell {b : Buf} (hg : GridOk b) {p : Cursor} (hp : InBounds p b.size) :
    ∃ c, cellAt b p = some c :=
  ⟨_, List.getElem?_eq_getElem (by rw [hg.len]; exact numOf_lt hp)⟩

theorem live_narrow_sizes {u : UEnv} {steps : List LiveStep} (hs : ∀ st ∈ steps, st.Narrow u) :
    ∀ s, .resize s ∈ steps.filterMap LiveStep.asOp → GoodSize s := by
  intro s h
  obtain ⟨st, h1, h2⟩ := List.mem_filterMap.mp h
  cases st with
  | draw op => cases h2; exact ((hs _ h1).1 s rfl).elim
  | reported size => cases h2; exact (hs _ h1).1
  | _ => cases h2

theorem live_wide_sizes {u : UEnv} {t : WTerm} : ∀ {steps : List LiveStep} {x y : WSess} {f g : Prop},
    LiveWideRun u t x f steps → LivePath u t steps x f y g →
    ∀ s, .resize s ∈ steps.filterMap LiveStep.asOp → GoodSize s := by
  intro steps
  induction steps with
  | nil => intro x y f g _ _ s h; cases h
  | cons st rest ih =>
    intro x y f g hw hp s h
    obtain ⟨x', h1, h2⟩ := hp
    obtain ⟨st', h3, h4⟩ := List.mem_filterMap.mp h
    rcases List.mem_cons.mp h3 with rfl | h3
    · cases st' with
      | draw op => cases h4; exact (hw.1.1 s rfl).elim
      | reported size => cases h4; exact hw.1.1.1
      | _ => cases h4
    · exact ih (hw.2 x' h1) h2 s (List.mem_filterMap.mpr ⟨st', h3, h4⟩)

theorem samePicture_shown {u : UEnv} {default : BitVec 16} {t : Term} {o : OutBuf} {b : Buf}
    (hg : GridOk b) (hu : Displays u t b) (hw : ConShows u default o b) : SamePicture default t o := by
  refine samePicture_of (u := u) (S := fun _ => False) (fun _ h => grid_cell hg h)
    hu.1 hw.1 (fun p c hin hc => ?_) (fun p c hin hc => ?_)
  · have h1 := hu.2 p c hin hc
    exact ⟨fun hr => by rw [h1, if_pos hr], fun h => h.elim, fun n _ => by rw [h1, if_neg n]⟩
  · obtain ⟨h1, h2⟩ := hw.2 p c hin hc
    exact ⟨fun h => h.elim, fun n _ => h1 n, h2⟩

end Mortal
