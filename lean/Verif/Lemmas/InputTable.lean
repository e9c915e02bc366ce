import Verif.Lemmas.Input

/-! # The table a terminal builds, as a history of `SequenceMap` calls -/

namespace Mortal
open Spec

/-- The additions of `sequences` as calls of the `SequenceMap` API. -/
def seqOps (info : KeyCap → Option Bytes) (l : List KeyCap) : List (MapOp SeqData) :=
  l.filterMap fun k => match info k with
    | none => none
    | some s => if s.all (fun b => decide (b.toNat < 128)) then some (.insert s (.key (keyMeant k))) else none

theorem codeRun_cons {V : Type} (m : SequenceMap V) (op : MapOp V) (ops : List (MapOp V)) :
    codeRun m (op :: ops) = (do
      let (m', o) ← op.run m
      let (m'', os) ← codeRun m' ops
      pure (m'', o :: os)) := rfl

theorem specRun_cons {V : Type} (m : PMap V) (op : MapOp V) (ops : List (MapOp V)) :
    specRun m (op :: ops) =
      ((specRun (op.spec m).1 ops).1, (op.spec m).2 :: (specRun (op.spec m).1 ops).2) := rfl

theorem seqOps_run (info : KeyCap → Option Bytes) (l : List KeyCap) : ∀ m : SequenceMap SeqData,
    (l.map fun k => (k, keyMeant k)).foldlM (addSeq info) m = (codeRun m (seqOps info l)).map (·.1) := by
  induction l with
  | nil => intro m; rfl
  | cons k l ih =>
    intro m
    rw [List.map_cons, List.foldlM_cons]
    rw [seqOps, List.filterMap_cons]
    cases hk : info k with
    | none =>
      rw [show addSeq info m (k, keyMeant k) = some m by rw [addSeq, hk]]
      exact ih m
    | some s =>
      dsimp only
      by_cases ha : s.all (fun b => decide (b.toNat < 128)) = true
      · rw [if_pos ha, show addSeq info m (k, keyMeant k) = (m.insert s (.key (keyMeant k))).map (·.1) by
          rw [addSeq, hk]; exact if_pos ha]
        show _ = Option.map _ (codeRun m (.insert s (.key (keyMeant k)) :: seqOps info l))
        rw [codeRun_cons]
        dsimp only [MapOp.run]
        cases hi : m.insert s (.key (keyMeant k)) with
        | none => rfl
        | some x =>
          obtain ⟨m', o⟩ := x
          simp only [Option.map_some, Option.bind_eq_bind, Option.bind_some, Option.pure_def]
          rw [ih m']
          generalize codeRun m' _ = r
          cases r <;> rfl
      · rw [if_neg ha, show addSeq info m (k, keyMeant k) = some m by rw [addSeq, hk]; exact if_neg ha]
        exact ih m

theorem specRun_append {V : Type} (a b : List (MapOp V)) : ∀ m : PMap V,
    (specRun m (a ++ b)).1 = (specRun (specRun m a).1 b).1 := by
  induction a with
  | nil => intro m; rfl
  | cons x a ih =>
    intro m
    rw [List.cons_append, specRun_cons, specRun_cons]
    exact ih _

theorem codeRun_append {V : Type} (a b : List (MapOp V)) : ∀ (m m' : SequenceMap V) os,
    codeRun m a = some (m', os) →
    (codeRun m (a ++ b)).map (·.1) = (codeRun m' b).map (·.1) := by
  induction a with
  | nil => intro m m' os h; cases h; rfl
  | cons x a ih =>
    intro m m' os h
    rw [List.cons_append, codeRun_cons]
    rw [codeRun_cons] at h
    cases hx : x.run m with
    | none => rw [hx] at h; cases h
    | some y =>
      rw [hx] at h
      simp only [Option.bind_eq_bind, Option.bind_some] at h ⊢
      cases hr : codeRun y.1 a with
      | none => rw [hr] at h; cases h
      | some z =>
        rw [hr] at h
        simp only [Option.bind_some, Option.pure_def, Option.some.injEq, Prod.mk.injEq] at h
        have := ih y.1 z.1 z.2 hr
        rw [← h.1, ← this]
        generalize codeRun y.1 (a ++ b) = q
        cases q <;> rfl

theorem all_ascii_iff {s : Bytes} :
    s.all (fun b => decide (b.toNat < 128)) = true ↔ ∀ x ∈ s, x.toNat < 128 := by
  rw [List.all_eq_true]
  exact ⟨fun h x hx => of_decide_eq_true (h x hx), fun h x hx => decide_eq_true (h x hx)⟩

theorem seqOps_spec (info : KeyCap → Option Bytes) (l : List KeyCap) (b : Bytes) : ∀ m : PMap SeqData,
    (specRun m (seqOps info l)).1 b = ((keysOf info l b).getLast?.map fun k => .key (keyMeant k)).or (m b) := by
  induction l with
  | nil => intro m; rfl
  | cons k l ih =>
    intro m
    unfold seqOps keysOf
    rw [List.filterMap_cons, List.filter_cons]
    have ih' := ih
    unfold seqOps keysOf at ih'
    cases hk : info k with
    | none =>
      dsimp only
      rw [ih', if_neg (by simp)]
    | some s =>
      dsimp only
      by_cases ha : s.all (fun b => decide (b.toNat < 128)) = true
      · rw [if_pos ha]
        dsimp only [specRun, MapOp.spec]
        rw [ih']
        by_cases hb : s = b
        · subst hb
          rw [if_pos (by simpa using all_ascii_iff.mp ha), List.getLast?_cons]
          simp only [PMap.upd, if_pos]
          generalize List.getLast? _ = o
          cases o <;> rfl
        · rw [if_neg (by simp [hb])]
          simp only [PMap.upd, if_neg (Ne.symm hb)]
      · rw [if_neg ha, if_neg ?_]
        · exact ih' m
        · simp only [decide_eq_true_eq, not_and]
          intro he
          cases he
          rw [← all_ascii_iff]
          exact ha

theorem isXterm_iff (name : Bytes) : isXterm name = true ↔ XtermName name := by
  unfold isXterm XtermName
  rw [Bool.or_eq_true, startsWith_iff, beq_iff_eq]
  constructor
  · rintro (h | ⟨t, h⟩)
    · exact Or.inl h
    · exact Or.inr ⟨t, h.symm⟩
  · rintro (h | ⟨t, h⟩)
    · exact Or.inl h
    · exact Or.inr ⟨t, h.symm⟩

theorem ascii_encode {s : Bytes} (h : ∀ x ∈ s, x.toNat < 128) : ∃ t, s = encode t := by
  refine ⟨s.map fun b => Char.ofNat b.toNat, ?_⟩
  induction s with
  | nil => rfl
  | cons b s ih =>
    have hb := h b (by simp)
    rw [List.map_cons, encode_cons, ← ih fun x hx => h x (by simp [hx])]
    have hv : b.toNat.isValidChar := Or.inl (by omega)
    have ht : (Char.ofNat b.toNat).toNat = b.toNat := by
      rw [Char.ofNat, dif_pos hv]; rfl
    rw [enc1 (by rw [ht]; omega), ht]
    simp


end Mortal
