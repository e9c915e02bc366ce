import Verif.Spec.Macros

/-!
# Lemmas on the expansion of `term_write!`
-/

namespace Mortal
open Spec

/-- The calls of an expression, first to last. -/
def MExpr.calls : MExpr → List MCall
  | .init => []
  | .chain r c => r.calls ++ [c]

theorem styleRule_iff (r m : MExpr) (ts : List Tok) :
    styleRule r ts = some m ↔ ∃ c, Means (.bracket ts) c ∧ m = .chain r c := by
  constructor
  · intro h
    unfold styleRule at h
    split at h <;> first
      | (cases h; exact ⟨_, by constructor <;> rfl, rfl⟩)
      | cases h
  · rintro ⟨c, h, rfl⟩
    cases h with
    | fg h => rename_i w c; cases w <;> cases h <;> rfl
    | bg h => rename_i w c; cases w <;> cases h <;> rfl
    | style h => rename_i w c; cases w <;> cases h <;> rfl
    | noStyle h => rename_i w c; cases w <;> cases h <;> rfl
    | _ => rfl

theorem mainRule_iff (es : List Elem) : ∀ (r m : MExpr),
    mainRule r es = some m ↔
      ∃ cs, Stands es cs ∧ m = cs.foldl MExpr.chain r := by
  induction es with
  | nil =>
    intro r m
    constructor
    · intro h; cases h; exact ⟨[], .nil, rfl⟩
    · rintro ⟨cs, h, rfl⟩; cases h; rfl
  | cons e es ih =>
    intro r m
    have key : ∀ r', (mainRule r (e :: es) = mainRule r' es) → (∃ c, Means e c ∧ r' = .chain r c ∧
        ∀ c', Means e c' → c' = c) →
        (mainRule r (e :: es) = some m ↔ ∃ cs, Stands (e :: es) cs ∧ m = cs.foldl MExpr.chain r) := by
      rintro r' h1 ⟨c, hc, rfl, hu⟩
      rw [h1, ih]
      constructor
      · rintro ⟨cs, h, rfl⟩; exact ⟨c :: cs, .cons hc h, rfl⟩
      · rintro ⟨cs, h, rfl⟩
        cases h with
        | cons h2 h3 => cases hu _ h2; exact ⟨_, h3, rfl⟩
    cases e with
    | bracket ts =>
      cases hr : styleRule r ts with
      | none =>
        have h0 : mainRule r (.bracket ts :: es) = none := by simp only [mainRule, hr]
        rw [h0]
        constructor
        · intro h; cases h
        · rintro ⟨cs, h, -⟩
          cases h with
          | cons h2 h3 =>
            have := (styleRule_iff r _ ts).mpr ⟨_, h2, rfl⟩
            rw [hr] at this; cases this
      | some r' =>
        have h1 : mainRule r (.bracket ts :: es) = mainRule r' es := by simp only [mainRule, hr]
        obtain ⟨c, hc, rfl⟩ := (styleRule_iff r r' ts).mp hr
        refine key _ h1 ⟨c, hc, rfl, fun c' h => ?_⟩
        have := (styleRule_iff r _ ts).mpr ⟨c', h, rfl⟩
        rw [hr] at this
        injection this with this
        injection this with _ this
        exact this.symm
    | paren f =>
      cases f with
      | colon d g => exact key _ rfl ⟨_, .display, rfl, fun c' h => by cases h; rfl⟩
      | quest d g => exact key _ rfl ⟨_, .debug, rfl, fun c' h => by cases h; rfl⟩
      | args t => exact key _ rfl ⟨_, .format, rfl, fun c' h => by cases h; rfl⟩
    | lit t => exact key _ rfl ⟨_, .literal, rfl, fun c' h => by cases h; rfl⟩

theorem calls_foldl (cs : List MCall) : ∀ r : MExpr,
    (cs.foldl MExpr.chain r).calls = r.calls ++ cs := by
  induction cs with
  | nil => intro r; simp
  | cons c cs ih => intro r; simp [ih, MExpr.calls]

theorem eval_foldl_ok (env : WEnv) (cs : List MCall) : ∀ (r : MExpr) (s s1 t : WS),
    r.evalTerm env s = .ok s1 →
    ((cs.foldl MExpr.chain r).evalTerm env s = .ok t ↔ AllOk env cs s1 t) := by
  induction cs with
  | nil =>
    intro r s s1 t h
    constructor
    · intro h2; simp only [List.foldl_nil] at h2; rw [h] at h2; cases h2; exact .nil
    · intro h2; cases h2; exact h
  | cons c cs ih =>
    intro r s s1 t h
    have hc : (MExpr.chain r c).evalTerm env s = c.onTerm env s1 := by simp only [MExpr.evalTerm, h]
    have stuck : ∀ (cs : List MCall) (r : MExpr), (∀ s', r.evalTerm env s ≠ .ok s') →
        ∀ s', (cs.foldl MExpr.chain r).evalTerm env s ≠ .ok s' := by
      intro cs
      induction cs with
      | nil => intro r h; exact h
      | cons c cs ih =>
        intro r h
        refine ih _ fun s' h2 => ?_
        simp only [MExpr.evalTerm] at h2
        cases hr : r.evalTerm env s with
        | ok x => exact h _ hr
        | err e x => rw [hr] at h2; cases h2
        | stop w => rw [hr] at h2; cases h2
    simp only [List.foldl_cons]
    constructor
    · intro h2
      cases hx : c.onTerm env s1 with
      | ok x => exact .cons hx ((ih _ _ _ _ (hc.trans hx)).mp h2)
      | err e x =>
        exact absurd h2 (stuck cs _ (fun s' h3 => by rw [hc, hx] at h3; cases h3) t)
      | stop w =>
        exact absurd h2 (stuck cs _ (fun s' h3 => by rw [hc, hx] at h3; cases h3) t)
    · intro h2
      cases h2 with
      | cons h3 h4 => exact (ih _ _ _ _ (hc.trans h3)).mpr h4

theorem eval_foldl_err (env : WEnv) (cs : List MCall) : ∀ (r : MExpr) (s t : WS) (e : IoErr),
    r.evalTerm env s = .err e t → (cs.foldl MExpr.chain r).evalTerm env s = .err e t := by
  induction cs with
  | nil => intro r s t e h; exact h
  | cons c cs ih =>
    intro r s t e h
    exact ih _ _ _ _ (by simp only [MExpr.evalTerm, h])

theorem eval_foldl_stop (env : WEnv) (cs : List MCall) : ∀ (r : MExpr) (s : WS) (w : Stop),
    r.evalTerm env s = .stop w → (cs.foldl MExpr.chain r).evalTerm env s = .stop w := by
  induction cs with
  | nil => intro r s w h; exact h
  | cons c cs ih =>
    intro r s w h
    exact ih _ _ _ (by simp only [MExpr.evalTerm, h])

theorem eval_foldl_err_iff (env : WEnv) (cs : List MCall) : ∀ (r : MExpr) (s s1 t : WS) (e : IoErr),
    r.evalTerm env s = .ok s1 →
    ((cs.foldl MExpr.chain r).evalTerm env s = .err e t ↔
      ∃ done c rest s', cs = done ++ c :: rest ∧ AllOk env done s1 s' ∧
        c.onTerm env s' = .err e t) := by
  induction cs with
  | nil =>
    intro r s s1 t e h
    constructor
    · intro h2; simp only [List.foldl_nil] at h2; rw [h] at h2; cases h2
    · rintro ⟨done, c, rest, s', h2, -⟩; cases done <;> cases h2
  | cons c cs ih =>
    intro r s s1 t e h
    have hc : (MExpr.chain r c).evalTerm env s = c.onTerm env s1 := by simp only [MExpr.evalTerm, h]
    simp only [List.foldl_cons]
    constructor
    · intro h2
      cases hx : c.onTerm env s1 with
      | ok x =>
        obtain ⟨done, c', rest, s', rfl, h3, h4⟩ := (ih _ _ _ _ _ (hc.trans hx)).mp h2
        exact ⟨c :: done, c', rest, s', rfl, .cons hx h3, h4⟩
      | err e' x =>
        rw [eval_foldl_err env cs _ _ _ _ (hc.trans hx)] at h2
        cases h2
        exact ⟨[], c, cs, s1, rfl, .nil, hx⟩
      | stop w => rw [eval_foldl_stop env cs _ _ _ (hc.trans hx)] at h2; cases h2
    · rintro ⟨done, c', rest, s', h2, h3, h4⟩
      cases h3 with
      | nil => cases h2; exact eval_foldl_err env cs _ _ _ _ (hc.trans h4)
      | cons h5 h6 =>
        simp only [List.cons_append, List.cons.injEq] at h2
        obtain ⟨rfl, rfl⟩ := h2
        exact (ih _ _ _ _ _ (hc.trans h5)).mpr ⟨_, _, _, _, rfl, h6, h4⟩

theorem evalScreen_foldl (u : UEnv) (cs : List MCall) : ∀ (r : MExpr) (b : Buf),
    (cs.foldl MExpr.chain r).evalScreen u b =
      (r.evalScreen u b).bind fun b1 => cs.foldlM (fun b c => c.onScreen u b) b1 := by
  induction cs with
  | nil => intro r b; simp
  | cons c cs ih =>
    intro r b
    simp only [List.foldl_cons, ih, MExpr.evalScreen, List.foldlM_cons]
    cases r.evalScreen u b <;> rfl

theorem foldlM_drawn (u : UEnv) (cs : List MCall) : ∀ (b t : Buf),
    cs.foldlM (fun b c => c.onScreen u b) b = some t ↔ AllDrawn u cs b t := by
  induction cs with
  | nil =>
    intro b t
    constructor
    · intro h; cases h; exact .nil
    · intro h; cases h; rfl
  | cons c cs ih =>
    intro b t
    simp only [List.foldlM_cons]
    constructor
    · intro h
      cases hc : c.onScreen u b with
      | none => rw [hc] at h; cases h
      | some b' => rw [hc] at h; exact .cons hc ((ih _ _).mp h)
    · intro h
      cases h with
      | cons h1 h2 => rw [h1]; exact (ih _ _).mpr h2

theorem termWrite_some {es : List Elem} {m : MExpr} {cs : List MCall}
    (h : termWrite es = some m) (hs : Stands es cs) : m = cs.foldl MExpr.chain .init := by
  cases es with
  | nil => cases h
  | cons e es =>
    have h2 : termWrite (e :: es) = some (cs.foldl MExpr.chain .init) :=
      (mainRule_iff _ _ _).mpr ⟨cs, hs, rfl⟩
    rw [h] at h2
    exact Option.some.inj h2

end Mortal
