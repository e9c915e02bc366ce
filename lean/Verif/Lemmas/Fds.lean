import Verif.Spec.Fds

/-! # Lemmas about file descriptors -/

namespace Mortal
open Spec

/-- A terminal uses the files it should. -/
def Mate (std : Nat → Nat) (tab : Nat → Option Nat) (n : Nat) :
    Option (Option FdTerm) → Option (Option TermFile) → Prop
  | none, none => True
  | some none, some none => True
  | some (some t), some (some (.own f)) =>
    t.owned = true ∧ t.inFd = t.outFd ∧ tab t.outFd = some f ∧ n ≤ f
  | some (some t), some (some (.borrowed a b)) =>
    t.owned = false ∧ t.inFd = 0 ∧ a = std 0 ∧ t.outFd < 3 ∧ b = std t.outFd
  | _, _ => False

/-- The table of descriptors holds what it should. -/
structure FdInv (std : Nat → Nat) (inh : Nat → Option Nat) (n : Nat) (s : FdSt) (h : Holdings) : Prop where
  next : s.next = h.opened
  low : n ≤ s.next
  kept : ∀ i f, inh i = some f → s.tab i = some f
  files : ∀ i f, (i, f) ∈ h.files → s.tab i = some f ∧ n ≤ f
  mate : ∀ i : Nat, Mate std s.tab n s.terms[i]? h.terms[i]?
  lost : ∀ f, f ∈ h.lost → (∃ i, s.tab i = some f) ∧ n ≤ f
  all : ∀ i f, s.tab i = some f → inh i = some f ∨ (i, f) ∈ h.files ∨
    (∃ j : Nat, h.terms[j]? = some (some (.own f))) ∨ f ∈ h.lost
  lt : ∀ i f, s.tab i = some f → f < s.next
  inj : ∀ i j f, n ≤ f → s.tab i = some f → s.tab j = some f → i = j
  terms1 : ∀ i j f : Nat, h.terms[i]? = some (some (.own f)) → h.terms[j]? = some (some (.own f)) → i = j
  terms2 : ∀ i j f : Nat, h.terms[i]? = some (some (.own f)) → (j, f) ∉ h.files
  terms3 : ∀ i f : Nat, h.terms[i]? = some (some (.own f)) → f ∉ h.lost
  files3 : ∀ i f, (i, f) ∈ h.files → f ∉ h.lost

/-- A terminal with a file of its own has one descriptor for it. -/
theorem FdInv.own {std : Nat → Nat} {inh : Nat → Option Nat} {n : Nat} {s : FdSt} {h : Holdings}
    (v : FdInv std inh n s h) {i f : Nat} (e : h.terms[i]? = some (some (.own f))) :
    ∃ t, s.terms[i]? = some (some t) ∧ t.owned = true ∧ t.inFd = t.outFd ∧ s.tab t.outFd = some f ∧ n ≤ f := by
  have m := v.mate i
  rw [e] at m
  cases hs : s.terms[i]? with
  | none => rw [hs] at m; exact m.elim
  | some o =>
    cases o with
    | none => rw [hs] at m; exact m.elim
    | some t => rw [hs] at m; exact ⟨t, rfl, m⟩

theorem mate_tab {std : Nat → Nat} {tab tab' : Nat → Option Nat} {n : Nat} {a : Option (Option FdTerm)}
    {b : Option (Option TermFile)} (m : Mate std tab n a b)
    (k : ∀ t f, a = some (some t) → b = some (some (.own f)) → tab t.outFd = some f → tab' t.outFd = some f) :
    Mate std tab' n a b := by
  cases a with
  | none => cases b with
    | none => trivial
    | some b => exact m.elim
  | some a => cases a with
    | none => cases b with
      | none => exact m.elim
      | some b => cases b with
        | none => trivial
        | some b => exact m.elim
    | some t => cases b with
      | none => exact m.elim
      | some b => cases b with
        | none => exact m.elim
        | some b => cases b with
          | own f => exact ⟨m.1, m.2.1, k t f rfl rfl m.2.2.1, m.2.2.2⟩
          | borrowed a b => exact m

theorem fd_length {std : Nat → Nat} {inh : Nat → Option Nat} {n : Nat} {s : FdSt} {h : Holdings}
    (v : FdInv std inh n s h) : s.terms.length = h.terms.length := by
  rcases Nat.lt_trichotomy s.terms.length h.terms.length with x | x | x
  · have m := v.mate s.terms.length
    rw [List.getElem?_eq_none (Nat.le_refl _), List.getElem?_eq_getElem x] at m
    exact m.elim
  · exact x
  · have m := v.mate h.terms.length
    rw [List.getElem?_eq_none (Nat.le_refl h.terms.length), List.getElem?_eq_getElem x] at m
    cases hq : s.terms[h.terms.length] with
    | none => rw [hq] at m; exact m.elim
    | some t => rw [hq] at m; exact m.elim

/-- A file is opened and belongs to nobody yet. -/
theorem fd_open {std : Nat → Nat} {inh : Nat → Option Nat} {n : Nat} {s : FdSt} {h : Holdings}
    (v : FdInv std inh n s h) {fd : Nat} (hf : s.tab fd = none) :
    (∀ i f, inh i = some f → (s.sysOpen fd).tab i = some f) ∧
    (∀ i f, s.tab i = some f → (s.sysOpen fd).tab i = some f) ∧
    (s.sysOpen fd).tab fd = some h.opened ∧
    (∀ i f, (s.sysOpen fd).tab i = some f → (i = fd ∧ f = h.opened) ∨ s.tab i = some f) ∧
    (∀ i f, (s.sysOpen fd).tab i = some f → f < (s.sysOpen fd).next) ∧
    (∀ i j f, n ≤ f → (s.sysOpen fd).tab i = some f → (s.sysOpen fd).tab j = some f → i = j) := by
  have h2 : ∀ i f, s.tab i = some f → (s.sysOpen fd).tab i = some f := by
    intro i f e
    have : i ≠ fd := by intro x; subst x; rw [hf] at e; cases e
    simp only [FdSt.sysOpen, if_neg this]; exact e
  have h4 : ∀ i f, (s.sysOpen fd).tab i = some f → (i = fd ∧ f = h.opened) ∨ s.tab i = some f := by
    intro i f e
    by_cases hi : i = fd
    · simp only [FdSt.sysOpen, if_pos hi, Option.some.injEq] at e
      exact Or.inl ⟨hi, by rw [← e, v.next]⟩
    · simp only [FdSt.sysOpen, if_neg hi] at e
      exact Or.inr e
  refine ⟨fun i f e => h2 _ _ (v.kept i f e), h2, ?_, h4, ?_, ?_⟩
  · simp only [FdSt.sysOpen, if_true, v.next]
  · intro i f e
    rcases h4 i f e with ⟨_, rfl⟩ | e
    · simp only [FdSt.sysOpen, v.next]; omega
    · have := v.lt i f e
      simp only [FdSt.sysOpen]; omega
  · intro i j f hn e1 e2
    rcases h4 i f e1 with ⟨x1, y1⟩ | z1
    · rcases h4 j _ e2 with ⟨x2, _⟩ | z2
      · rw [x1, x2]
      · have := v.lt j _ z2
        rw [v.next] at this; omega
    · rcases h4 j f e2 with ⟨x2, y2⟩ | z2
      · have := v.lt i _ z1
        rw [v.next] at this; omega
      · exact v.inj i j f hn z1 z2

theorem getElem?_snoc {α : Type} (l : List α) (a : α) (i : Nat) :
    (l ++ [a])[i]? = if i = l.length then some a else l[i]? := by
  rcases Nat.lt_trichotomy i l.length with h | h | h
  · rw [List.getElem?_append_left h, if_neg (by omega)]
  · subst h
    rw [List.getElem?_append_right (Nat.le_refl _), if_pos rfl]
    simp
  · rw [List.getElem?_append_right (by omega), if_neg (by omega), List.getElem?_eq_none (by simp; omega),
      List.getElem?_eq_none (by omega)]

theorem fd_openT {std : Nat → Nat} {inh : Nat → Option Nat} {n : Nat} {s : FdSt} {h : Holdings}
    (v : FdInv std inh n s h) {fd : Nat} (hf : s.tab fd = none) :
    FdInv std inh n (fdOpen s (some fd) true) (h.after std (.openT (some fd) true)) := by
  obtain ⟨k1, k2, k3, k4, k5, k6⟩ := fd_open v hf
  have hl := fd_length v
  have old : ∀ i f : Nat, h.terms[i]? = some (some (.own f)) → f ≠ h.opened := by
    intro i f e
    obtain ⟨t, _, _, _, e2, _⟩ := v.own e
    have := v.lt _ _ e2
    rw [v.next] at this; omega
  have split : ∀ i f : Nat, (h.terms ++ [some (.own h.opened)])[i]? = some (some (.own f)) →
      (i = h.terms.length ∧ f = h.opened) ∨ h.terms[i]? = some (some (.own f)) := by
    intro i f e
    rw [getElem?_snoc] at e
    by_cases hi : i = h.terms.length
    · rw [if_pos hi] at e
      simp only [Option.some.injEq, TermFile.own.injEq] at e
      exact Or.inl ⟨hi, e.symm⟩
    · rw [if_neg hi] at e; exact Or.inr e
  have nf : ∀ i, (i, h.opened) ∉ h.files := by
    intro i e
    have := v.lt _ _ (v.files i _ e).1
    rw [v.next] at this; omega
  have nl : h.opened ∉ h.lost := by
    intro e
    obtain ⟨⟨i, e⟩, _⟩ := v.lost _ e
    have := v.lt _ _ e
    rw [v.next] at this; omega
  constructor
  · show s.next + 1 = h.opened + 1; rw [v.next]
  · show n ≤ s.next + 1; have := v.low; omega
  · exact k1
  · intro i f e; exact ⟨k2 _ _ (v.files i f e).1, (v.files i f e).2⟩
  · intro i
    show Mate std (s.sysOpen fd).tab n ((s.terms ++ [some _])[i]?) ((h.terms ++ [some _])[i]?)
    rw [getElem?_snoc, getElem?_snoc, hl]
    by_cases hi : i = h.terms.length
    · rw [if_pos hi, if_pos hi]
      refine ⟨rfl, rfl, k3, ?_⟩
      have := v.low
      rw [v.next] at this; exact this
    · rw [if_neg hi, if_neg hi]
      exact mate_tab (v.mate i) fun t f _ _ e => k2 _ _ e
  · intro f e
    obtain ⟨⟨i, a⟩, b⟩ := v.lost f e
    exact ⟨⟨i, k2 _ _ a⟩, b⟩
  · intro i f e
    rcases k4 i f e with ⟨rfl, rfl⟩ | e
    · exact Or.inr (Or.inr (Or.inl ⟨h.terms.length, by
        show (h.terms ++ [some _])[_]? = _
        rw [getElem?_snoc, if_pos rfl]⟩))
    · rcases v.all i f e with x | x | ⟨j, x⟩ | x
      · exact Or.inl x
      · exact Or.inr (Or.inl x)
      · refine Or.inr (Or.inr (Or.inl ⟨j, ?_⟩))
        show (h.terms ++ [some _])[_]? = _
        rw [getElem?_snoc, if_neg ?_]
        · exact x
        · intro hj
          rw [hj, List.getElem?_eq_none (Nat.le_refl _)] at x
          cases x
      · exact Or.inr (Or.inr (Or.inr x))
  · exact k5
  · exact k6
  · intro i j f e1 e2
    rcases split i f e1 with ⟨rfl, rfl⟩ | e1
    · rcases split j _ e2 with ⟨rfl, _⟩ | e2
      · rfl
      · exact absurd rfl (old _ _ e2)
    · rcases split j f e2 with ⟨rfl, rfl⟩ | e2
      · exact absurd rfl (old _ _ e1)
      · exact v.terms1 i j f e1 e2
  · intro i j f e
    rcases split i f e with ⟨rfl, rfl⟩ | e
    · exact nf j
    · exact v.terms2 i j f e
  · intro i f e
    rcases split i f e with ⟨rfl, rfl⟩ | e
    · exact nl
    · exact v.terms3 i f e
  · exact v.files3

/-- `Terminal::open` that fails after the file is open. -/
theorem fd_openFail {std : Nat → Nat} {inh : Nat → Option Nat} {n : Nat} {s : FdSt} {h : Holdings}
    (v : FdInv std inh n s h) {fd : Nat} (hf : s.tab fd = none) :
    FdInv std inh n (fdOpen s (some fd) false) (h.after std (.openT (some fd) false)) := by
  have e : fdOpen s (some fd) false = { s with next := s.next + 1 } := by
    have : ∀ i, (if i = fd then none else (if i = fd then some s.next else s.tab i)) = s.tab i := by
      intro i
      by_cases hi : i = fd
      · rw [if_pos hi, hi, hf]
      · rw [if_neg hi, if_neg hi]
    simp only [fdOpen, fdNew, FdSt.sysOpen, FdSt.closeFd, Bool.false_eq_true, if_false]
    congr 1
    funext i
    exact this i
  rw [e]
  exact { v with
    next := by show s.next + 1 = h.opened + 1; rw [v.next]
    low := by show n ≤ s.next + 1; have := v.low; omega
    lt := fun i f e => by have := v.lt i f e; show f < s.next + 1; omega }

theorem fd_borrow {std : Nat → Nat} {inh : Nat → Option Nat} {n : Nat} {s : FdSt} {h : Holdings}
    (v : FdInv std inh n s h) (o : Nat) (ho : o < 3) :
    FdInv std inh n (s.got ⟨0, o, false⟩) { h with terms := h.terms ++ [some (.borrowed (std 0) (std o))] } := by
  have hl := fd_length v
  have split : ∀ i f : Nat, (h.terms ++ [some (.borrowed (std 0) (std o))])[i]? = some (some (.own f)) →
      h.terms[i]? = some (some (.own f)) := by
    intro i f e
    rw [getElem?_snoc] at e
    by_cases hi : i = h.terms.length
    · rw [if_pos hi] at e; cases e
    · rw [if_neg hi] at e; exact e
  exact { v with
    mate := fun i => by
      show Mate std s.tab n ((s.terms ++ [some _])[i]?) ((h.terms ++ [some _])[i]?)
      rw [getElem?_snoc, getElem?_snoc, hl]
      by_cases hi : i = h.terms.length
      · rw [if_pos hi, if_pos hi]
        exact ⟨rfl, rfl, rfl, ho, rfl⟩
      · rw [if_neg hi, if_neg hi]
        exact v.mate i
    all := fun i f e => by
      rcases v.all i f e with x | x | ⟨j, x⟩ | x
      · exact Or.inl x
      · exact Or.inr (Or.inl x)
      · refine Or.inr (Or.inr (Or.inl ⟨j, ?_⟩))
        show (h.terms ++ [some _])[_]? = _
        rw [getElem?_snoc, if_neg ?_]
        · exact x
        · intro hj
          rw [hj, List.getElem?_eq_none (Nat.le_refl _)] at x
          cases x
      · exact Or.inr (Or.inr (Or.inr x))
    terms1 := fun i j f e1 e2 => v.terms1 i j f (split i f e1) (split j f e2)
    terms2 := fun i j f e => v.terms2 i j f (split i f e)
    terms3 := fun i f e => v.terms3 i f (split i f e) }

theorem getElem?_gone {α : Type} (l : List (Option α)) (i j : Nat) (a : α) :
    (l.set i none)[j]? = some (some a) → j ≠ i ∧ l[j]? = some (some a) := by
  intro e
  rw [List.getElem?_set] at e
  by_cases hi : i = j
  · rw [if_pos hi] at e
    split at e <;> cases e
  · rw [if_neg hi] at e
    exact ⟨fun x => hi x.symm, e⟩

theorem fd_drop {std : Nat → Nat} {inh : Nat → Option Nat} {n : Nat} {s : FdSt} {h : Holdings}
    (hi : ∀ i f, inh i = some f → f < n) (v : FdInv std inh n s h) (i : Nat) (p : Bool) :
    FdInv std inh n (s.dropAt i p) (h.gone i p) := by
  have hl := fd_length v
  have m := v.mate i
  have setmate : ∀ tab' : Nat → Option Nat, (∀ j : Nat, j ≠ i → Mate std tab' n s.terms[j]? h.terms[j]?) →
      ∀ j : Nat, Mate std tab' n (s.terms.set i none)[j]? (h.terms.set i none)[j]? := by
    intro tab' k j
    rw [List.getElem?_set, List.getElem?_set]
    by_cases hj : i = j
    · rw [if_pos hj, if_pos hj, hl]
      split
      · trivial
      · trivial
    · rw [if_neg hj, if_neg hj]
      exact k j fun x => hj x.symm
  cases hs : s.terms[i]? with
  | none =>
    rw [hs] at m
    cases hh : h.terms[i]? with
    | some x => rw [hh] at m; exact m.elim
    | none =>
      have e1 : s.dropAt i p = s := by rw [FdSt.dropAt, hs]
      have e2 : h.gone i p = h := by rw [Holdings.gone, hh]
      rw [e1, e2]; exact v
  | some o =>
    rw [hs] at m
    cases hh : h.terms[i]? with
    | none => rw [hh] at m; cases o <;> exact m.elim
    | some q =>
      rw [hh] at m
      cases o with
      | none =>
        cases q with
        | some q => exact m.elim
        | none =>
          have e1 : s.dropAt i p = s := by rw [FdSt.dropAt, hs]
          have e2 : h.gone i p = h := by rw [Holdings.gone, hh]
          rw [e1, e2]; exact v
      | some t =>
        cases q with
        | none => exact m.elim
        | some q =>
          cases q with
          | borrowed a b =>
            have e1 : s.dropAt i p = { s with terms := s.terms.set i none } := by
              rw [FdSt.dropAt, hs]
              dsimp only
              rw [fdDrop, m.1]
              cases p <;> rfl
            have e2 : h.gone i p = { h with terms := h.terms.set i none } := by rw [Holdings.gone, hh]
            rw [e1, e2]
            exact { v with
              mate := setmate s.tab fun j _ => v.mate j
              all := fun j f e => by
                rcases v.all j f e with x | x | ⟨k, x⟩ | x
                · exact Or.inl x
                · exact Or.inr (Or.inl x)
                · refine Or.inr (Or.inr (Or.inl ⟨k, ?_⟩))
                  have hk : i ≠ k := by intro hk; rw [← hk, hh] at x; cases x
                  show (h.terms.set i none)[k]? = _
                  rw [List.getElem?_set, if_neg hk]; exact x
                · exact Or.inr (Or.inr (Or.inr x))
              terms1 := fun a b f e1 e2 => v.terms1 a b f (getElem?_gone _ _ _ _ e1).2 (getElem?_gone _ _ _ _ e2).2
              terms2 := fun a b f e => v.terms2 a b f (getElem?_gone _ _ _ _ e).2
              terms3 := fun a f e => v.terms3 a f (getElem?_gone _ _ _ _ e).2 }
          | own f =>
            cases p with
            | true =>
              have e1 : s.dropAt i true = { s with terms := s.terms.set i none } := by
                rw [FdSt.dropAt, hs]; rfl
              have e2 : h.gone i true = { h with terms := h.terms.set i none, lost := f :: h.lost } := by
                rw [Holdings.gone, hh]; rfl
              rw [e1, e2]
              exact { v with
                mate := setmate s.tab fun j _ => v.mate j
                lost := fun g e => by
                  rcases List.mem_cons.1 e with rfl | e
                  · exact ⟨⟨_, m.2.2.1⟩, m.2.2.2⟩
                  · exact v.lost g e
                all := fun j g e => by
                  rcases v.all j g e with x | x | ⟨k, x⟩ | x
                  · exact Or.inl x
                  · exact Or.inr (Or.inl x)
                  · by_cases hk : i = k
                    · rw [← hk, hh] at x
                      cases x
                      exact Or.inr (Or.inr (Or.inr (List.mem_cons_self)))
                    · refine Or.inr (Or.inr (Or.inl ⟨k, ?_⟩))
                      show (h.terms.set i none)[k]? = _
                      rw [List.getElem?_set, if_neg hk]; exact x
                  · exact Or.inr (Or.inr (Or.inr (List.mem_cons_of_mem _ x)))
                terms1 := fun a b f e1 e2 =>
                  v.terms1 a b f (getElem?_gone _ _ _ _ e1).2 (getElem?_gone _ _ _ _ e2).2
                terms2 := fun a b f e => v.terms2 a b f (getElem?_gone _ _ _ _ e).2
                terms3 := fun a g e x => by
                  obtain ⟨h1, h2⟩ := getElem?_gone _ _ _ _ e
                  rcases List.mem_cons.1 x with rfl | x
                  · exact h1 (v.terms1 a i _ h2 hh)
                  · exact v.terms3 a g h2 x
                files3 := fun a g e x => by
                  rcases List.mem_cons.1 x with rfl | x
                  · exact v.terms2 i a _ hh e
                  · exact v.files3 a g e x }
            | false =>
              have e1 : s.dropAt i false = { s.closeFd t.outFd with terms := s.terms.set i none } := by
                rw [FdSt.dropAt, hs]
                dsimp only
                rw [fdDrop, m.1]
                rfl
              have e2 : h.gone i false = { h with terms := h.terms.set i none } := by
                rw [Holdings.gone, hh]; rfl
              rw [e1, e2]
              have keep : ∀ j g, g ≠ f → s.tab j = some g → (s.closeFd t.outFd).tab j = some g := by
                intro j g hg e
                have : j ≠ t.outFd := by
                  intro x; rw [x, m.2.2.1] at e; cases e; exact hg rfl
                simp only [FdSt.closeFd, if_neg this]; exact e
              have was : ∀ j g, (s.closeFd t.outFd).tab j = some g → s.tab j = some g ∧ g ≠ f := by
                intro j g e
                by_cases hj : j = t.outFd
                · simp only [FdSt.closeFd, if_pos hj] at e; cases e
                · simp only [FdSt.closeFd, if_neg hj] at e
                  refine ⟨e, fun x => hj ?_⟩
                  subst x
                  exact v.inj _ _ _ m.2.2.2 e m.2.2.1
              constructor
              · exact v.next
              · exact v.low
              · intro j g e
                refine keep j g (fun x => ?_) (v.kept j g e)
                have := hi j g e
                have := m.2.2.2
                omega
              · intro j g e
                refine ⟨keep j g (fun x => ?_) (v.files j g e).1, (v.files j g e).2⟩
                subst x
                exact v.terms2 i j _ hh e
              · exact setmate _ fun j hj => mate_tab (v.mate j) fun t' g _ hg e => keep _ g (fun x => by
                  subst x; exact hj (v.terms1 j i _ hg hh)) e
              · intro g e
                obtain ⟨⟨j, a⟩, b⟩ := v.lost g e
                exact ⟨⟨j, keep j g (fun x => by subst x; exact v.terms3 i _ hh e) a⟩, b⟩
              · intro j g e
                obtain ⟨e, hg⟩ := was j g e
                rcases v.all j g e with x | x | ⟨k, x⟩ | x
                · exact Or.inl x
                · exact Or.inr (Or.inl x)
                · refine Or.inr (Or.inr (Or.inl ⟨k, ?_⟩))
                  have hk : i ≠ k := by
                    intro hk; rw [← hk, hh] at x; cases x; exact hg rfl
                  show (h.terms.set i none)[k]? = _
                  rw [List.getElem?_set, if_neg hk]; exact x
                · exact Or.inr (Or.inr (Or.inr x))
              · intro j g e; exact v.lt j g (was j g e).1
              · intro j k g hn e1 e2; exact v.inj j k g hn (was j g e1).1 (was k g e2).1
              · exact fun a b f e1 e2 => v.terms1 a b f (getElem?_gone _ _ _ _ e1).2 (getElem?_gone _ _ _ _ e2).2
              · exact fun a b f e => v.terms2 a b f (getElem?_gone _ _ _ _ e).2
              · exact fun a f e => v.terms3 a f (getElem?_gone _ _ _ _ e).2
              · exact v.files3

theorem fd_openF {std : Nat → Nat} {inh : Nat → Option Nat} {n : Nat} {s : FdSt} {h : Holdings}
    (v : FdInv std inh n s h) {fd : Nat} (hf : s.tab fd = none) :
    FdInv std inh n (s.sysOpen fd) (h.after std (.openF fd)) := by
  obtain ⟨k1, k2, k3, k4, k5, k6⟩ := fd_open v hf
  constructor
  · show s.next + 1 = h.opened + 1; rw [v.next]
  · show n ≤ s.next + 1; have := v.low; omega
  · exact k1
  · intro i f e
    rcases List.mem_cons.1 e with e | e
    · cases e
      refine ⟨k3, ?_⟩
      have := v.low
      rw [v.next] at this; exact this
    · exact ⟨k2 _ _ (v.files i f e).1, (v.files i f e).2⟩
  · exact fun i => mate_tab (v.mate i) fun t f _ _ e => k2 _ _ e
  · intro f e
    obtain ⟨⟨i, a⟩, b⟩ := v.lost f e
    exact ⟨⟨i, k2 _ _ a⟩, b⟩
  · intro i f e
    rcases k4 i f e with ⟨rfl, rfl⟩ | e
    · exact Or.inr (Or.inl List.mem_cons_self)
    · rcases v.all i f e with x | x | x | x
      · exact Or.inl x
      · exact Or.inr (Or.inl (List.mem_cons_of_mem _ x))
      · exact Or.inr (Or.inr (Or.inl x))
      · exact Or.inr (Or.inr (Or.inr x))
  · exact k5
  · exact k6
  · exact v.terms1
  · intro i j f e x
    rcases List.mem_cons.1 x with x | x
    · cases x
      obtain ⟨t, _, _, _, e2, _⟩ := v.own e
      have := v.lt _ _ e2
      rw [v.next] at this; omega
    · exact v.terms2 i j f e x
  · exact v.terms3
  · intro i f e x
    rcases List.mem_cons.1 e with e | e
    · cases e
      obtain ⟨⟨j, a⟩, b⟩ := v.lost _ x
      have := v.lt _ _ a
      rw [v.next] at this; omega
    · exact v.files3 i f e x

theorem fd_closeF {std : Nat → Nat} {inh : Nat → Option Nat} {n : Nat} {s : FdSt} {h : Holdings}
    (hi : ∀ i f, inh i = some f → f < n) (v : FdInv std inh n s h) {fd f0 : Nat} (hf : (fd, f0) ∈ h.files) :
    FdInv std inh n (s.closeFd fd) (h.after std (.closeF fd)) := by
  obtain ⟨e0, n0⟩ := v.files fd f0 hf
  have keep : ∀ j g, g ≠ f0 → s.tab j = some g → (s.closeFd fd).tab j = some g := by
    intro j g hg e
    have : j ≠ fd := by intro x; rw [x, e0] at e; cases e; exact hg rfl
    simp only [FdSt.closeFd, if_neg this]; exact e
  have was : ∀ j g, (s.closeFd fd).tab j = some g → s.tab j = some g ∧ j ≠ fd := by
    intro j g e
    by_cases hj : j = fd
    · simp only [FdSt.closeFd, if_pos hj] at e; cases e
    · simp only [FdSt.closeFd, if_neg hj] at e
      exact ⟨e, hj⟩
  have mem : ∀ j g, (j, g) ∈ h.files.filter (fun x => x.1 ≠ fd) ↔ (j, g) ∈ h.files ∧ j ≠ fd := by
    intro j g
    rw [List.mem_filter]
    simp
  constructor
  · exact v.next
  · exact v.low
  · intro j g e
    exact keep j g (fun x => by have := hi j g e; omega) (v.kept j g e)
  · intro j g e
    obtain ⟨e, hj⟩ := (mem j g).1 e
    refine ⟨?_, (v.files j g e).2⟩
    simp only [FdSt.closeFd, if_neg hj]
    exact (v.files j g e).1
  · exact fun j => mate_tab (v.mate j) fun t g _ hg e => keep _ g (fun x => by
      subst x; exact v.terms2 j fd _ hg hf) e
  · intro g e
    obtain ⟨⟨j, a⟩, b⟩ := v.lost g e
    exact ⟨⟨j, keep j g (fun x => by subst x; exact v.files3 fd _ hf e) a⟩, b⟩
  · intro j g e
    obtain ⟨e, hj⟩ := was j g e
    rcases v.all j g e with x | x | x | x
    · exact Or.inl x
    · exact Or.inr (Or.inl ((mem j g).2 ⟨x, hj⟩))
    · exact Or.inr (Or.inr (Or.inl x))
    · exact Or.inr (Or.inr (Or.inr x))
  · intro j g e; exact v.lt j g (was j g e).1
  · intro j k g hn e1 e2; exact v.inj j k g hn (was j g e1).1 (was k g e2).1
  · exact v.terms1
  · exact fun a b f e x => v.terms2 a b f e ((mem b f).1 x).1
  · exact v.terms3
  · exact fun a f e => v.files3 a f ((mem a f).1 e).1

theorem fd_step {std : Nat → Nat} {inh : Nat → Option Nat} {n : Nat} {s : FdSt} {h : Holdings}
    (hi : Starts std inh n) (v : FdInv std inh n s h) (o : FdOp) (hl : Lawful s h o) :
    FdInv std inh n (o.run s).1 (h.after std o) ∧ (o.run s).2 = h.touches o := by
  have use : ∀ i : Nat, (match s.terms[i]? with | some (some t) => some (s.tab t.inFd) | _ => none) = h.touches (.readT i) ∧
      (match s.terms[i]? with | some (some t) => some (s.tab t.outFd) | _ => none) = h.touches (.writeT i) := by
    intro i
    have m := v.mate i
    rw [Holdings.touches, Holdings.touches]
    cases hs : s.terms[i]? with
    | none =>
      rw [hs] at m
      cases hh : h.terms[i]? with
      | some x => rw [hh] at m; exact m.elim
      | none => exact ⟨rfl, rfl⟩
    | some q =>
      rw [hs] at m
      cases hh : h.terms[i]? with
      | none => rw [hh] at m; cases q <;> exact m.elim
      | some r =>
        rw [hh] at m
        cases q with
        | none =>
          cases r with
          | none => exact ⟨rfl, rfl⟩
          | some r => exact m.elim
        | some t =>
          cases r with
          | none => exact m.elim
          | some r =>
            cases r with
            | own f =>
              dsimp only
              rw [m.2.1, m.2.2.1]
              exact ⟨rfl, rfl⟩
            | borrowed a b =>
              dsimp only
              rw [m.2.1, v.kept _ _ (hi.1 0 (by omega)), v.kept _ _ (hi.1 t.outFd m.2.2.2.1), m.2.2.1, m.2.2.2.2]
              exact ⟨rfl, rfl⟩
  cases o with
  | openT fd db =>
    cases fd with
    | none => exact ⟨v, rfl⟩
    | some fd =>
      cases db with
      | false => exact ⟨fd_openFail v hl, rfl⟩
      | true => exact ⟨fd_openT v hl, rfl⟩
  | stdoutT db =>
    cases db with
    | false => exact ⟨v, rfl⟩
    | true => exact ⟨fd_borrow v 1 (by omega), rfl⟩
  | stderrT db =>
    cases db with
    | false => exact ⟨v, rfl⟩
    | true => exact ⟨fd_borrow v 2 (by omega), rfl⟩
  | dropT i p => exact ⟨fd_drop hi.2 v i p, rfl⟩
  | newScreen i how =>
    cases how with
    | ok => exact ⟨v, rfl⟩
    | noSize => exact ⟨fd_drop hi.2 v i false, rfl⟩
    | noPrepare => exact ⟨fd_drop hi.2 v i false, rfl⟩
    | bufferPanics => exact ⟨fd_drop hi.2 v i false, rfl⟩
    | noEnter => exact ⟨fd_drop hi.2 v i false, rfl⟩
  | readT i => exact ⟨v, (use i).1⟩
  | writeT i => exact ⟨v, (use i).2⟩
  | openF fd => exact ⟨fd_openF v hl, rfl⟩
  | closeF fd =>
    obtain ⟨f, hf⟩ := hl
    exact ⟨fd_closeF hi.2 v hf, rfl⟩

theorem fd_run {std : Nat → Nat} {inh : Nat → Option Nat} {n : Nat} (hi : Starts std inh n) :
    ∀ (ops : List FdOp) (s : FdSt) (h : Holdings), FdInv std inh n s h → AllLawful std ops s h →
    FdInv std inh n (runFd ops s).1 (Holdings.run std ops h).1 ∧
      (runFd ops s).2 = (Holdings.run std ops h).2 := by
  intro ops
  induction ops with
  | nil => intro s h v _; exact ⟨v, rfl⟩
  | cons o ops ih =>
    intro s h v hl
    obtain ⟨v1, e1⟩ := fd_step hi v o hl.1
    obtain ⟨v2, e2⟩ := ih _ _ v1 hl.2
    exact ⟨v2, by
      show (o.run s).2 :: (runFd ops (o.run s).1).2 = _
      rw [e1, e2]; rfl⟩

theorem fd_init {std : Nat → Nat} {inh : Nat → Option Nat} {n : Nat} (hi : Starts std inh n) :
    FdInv std inh n (fdStart inh n) (noHoldings n) := by
  constructor
  · rfl
  · exact Nat.le_refl _
  · exact fun _ _ e => e
  · intro i f e; cases e
  · intro i; simp [fdStart, noHoldings, Mate]
  · intro f e; cases e
  · exact fun i f e => Or.inl e
  · exact hi.2
  · intro i j f hn e
    have := hi.2 i f e
    omega
  · intro i j f e; simp [noHoldings] at e
  · intro i j f e; simp [noHoldings] at e
  · intro i f e; simp [noHoldings] at e
  · intro i f e; cases e

theorem gone_lost (h : Holdings) (i : Nat) : (h.gone i false).lost = h.lost := by
  unfold Holdings.gone
  split <;> rfl

theorem no_lost (std : Nat → Nat) : ∀ (ops : List FdOp) (h : Holdings), NoPoisonedDrop ops →
    (Holdings.run std ops h).1.lost = h.lost := by
  intro ops
  induction ops with
  | nil => intro h _; rfl
  | cons o ops ih =>
    intro h hn
    show (Holdings.run std ops (h.after std o)).1.lost = h.lost
    rw [ih _ fun i x => hn i (List.mem_cons_of_mem _ x)]
    cases o with
    | openT fd db => cases fd <;> cases db <;> rfl
    | stdoutT db => cases db <;> rfl
    | stderrT db => cases db <;> rfl
    | dropT i p =>
      cases p with
      | true => exact absurd List.mem_cons_self (hn i)
      | false => exact gone_lost h i
    | newScreen i how => cases how <;> first | rfl | exact gone_lost h i
    | readT i => rfl
    | writeT i => rfl
    | openF fd => rfl
    | closeF fd => rfl

end Mortal
