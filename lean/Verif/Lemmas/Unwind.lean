import Verif.Lemmas.Locks
import Verif.Lemmas.ScreenSession
import Verif.Lemmas.Win
import Verif.Spec.Unwind

/-! # Lemmas about panics -/

namespace Mortal
open Spec

/-! ## Which locks get poisoned -/

theorem holderOf_snoc (l : LockId) (tr : List (Nat × Label σ)) (x : Nat × Label σ) :
    holderOf l (tr ++ [x]) = match x.2 with
      | .acq i => if i = l then some x.1 else holderOf l tr
      | .rel i => if i = l then none else holderOf l tr
      | _ => holderOf l tr := by
  unfold holderOf
  rw [List.foldl_append, List.foldl_cons, List.foldl_nil]
  obtain ⟨t, a⟩ := x
  cases a <;> rfl

theorem panicked_snoc (l : LockId) (tr : List (Nat × Label σ)) (x : Nat × Label σ) :
    PanickedHolding l (tr ++ [x]) ↔ PanickedHolding l tr ∨ (x.2 = .crash ∧ holderOf l tr = some x.1) := by
  constructor
  · rintro ⟨a, t, b, e, h⟩
    rcases List.eq_nil_or_concat b with rfl | ⟨b', y, rfl⟩
    · obtain ⟨rfl, h2⟩ := List.append_inj' e rfl
      cases h2
      exact Or.inr ⟨rfl, h⟩
    · rw [List.concat_eq_append, ← List.cons_append, ← List.append_assoc] at e
      obtain ⟨rfl, _⟩ := List.append_inj' e rfl
      exact Or.inl ⟨a, t, b', rfl, h⟩
  · rintro (⟨a, t, b, rfl, h⟩ | ⟨h1, h2⟩)
    · exact ⟨a, t, b ++ [x], by simp, h⟩
    · obtain ⟨t, y⟩ := x
      cases h1
      exact ⟨tr, t, [], rfl, h2⟩

/-- What holds after the execution `tr`. -/
structure Poisoning (scr : Bool) (tr : List (Nat × Label σ)) (s : Sys σ) : Prop where
  good : AllGood False scr s
  owner : ∀ l, (s.mx l).owner = holderOf l tr
  quiet : ∀ t, (s.thr t).panicking = true → NoAcq (s.thr t).code
  poison : ∀ l, PanickedHolding l tr ↔
    (s.mx l).poisoned = true ∨ ∃ t, (s.mx l).owner = some t ∧ (s.thr t).panicking = true

theorem poisoning_step [LockEnv ε σ] [LawfulLocks ε σ] {scr : Bool} {env : ε} {t : Nat} {s s' : Sys σ} {a : Label σ}
    {tr : List (Nat × Label σ)} (h : Poisoning scr tr s) (st : LStep env (Typed scr) t s a s') :
    Poisoning scr (tr ++ [(t, a)]) s' := by
  have hg := good_step (fun H c _ hm => LawfulLocks.good_typed scr env H c hm) h.good st
  -- steps that move only the thread on, and neither take nor give back anything
  have move : ∀ (c : Code σ) (w : σ) (a' : Label σ), (∀ i, a' ≠ .acq i) → (∀ i, a' ≠ .rel i) → a' ≠ .crash →
      ((s.thr t).panicking = true → NoAcq c) → AllGood False scr { s.goto t c with ws := w } →
      Poisoning scr (tr ++ [(t, a')]) { s.goto t c with ws := w } := by
    intro c w a' h1 h2 h3 h4 hg
    refine ⟨hg, fun l => ?_, fun i => ?_, fun l => ?_⟩
    · rw [holderOf_snoc]
      show (s.mx l).owner = _
      rw [h.owner]
      cases a' with
      | acq i => exact (h1 i rfl).elim
      | rel i => exact (h2 i rfl).elim
      | _ => rfl
    · by_cases hi : i = t
      · subst hi
        simp only [Sys.goto, if_true]
        exact h4
      · simp only [Sys.goto, if_neg hi]
        exact h.quiet i
    · rw [panicked_snoc, h.poison l]
      show _ ↔ (s.mx l).poisoned = true ∨ ∃ i, (s.mx l).owner = some i ∧ ((s.goto t c).thr i).panicking = true
      have e : ∀ i, ((s.goto t c).thr i).panicking = (s.thr i).panicking := by
        intro i
        by_cases hi : i = t
        · subst hi; simp [Sys.goto]
        · simp [Sys.goto, hi]
      simp only [e]
      exact ⟨fun x => x.elim id fun x => (h3 x.1).elim, Or.inl⟩
  -- a lock is taken
  have take : ∀ (l' : LockId) (c : Code σ), (s.mx l').owner = none → (s.thr t).panicking = false →
      AllGood False scr ((s.setOwner l' (some t) (s.mx l').poisoned).goto t c) →
      Poisoning scr (tr ++ [(t, .acq l')]) ((s.setOwner l' (some t) (s.mx l').poisoned).goto t c) := by
    intro l' c hf hp hg
    have e : ∀ i, (((s.setOwner l' (some t) (s.mx l').poisoned).goto t c).thr i).panicking
        = (s.thr i).panicking := by
      intro i
      by_cases hi : i = t
      · subst hi; simp [Sys.goto, Sys.setOwner]
      · simp [Sys.goto, Sys.setOwner, hi]
    refine ⟨hg, fun l => ?_, fun i hi => ?_, fun l => ?_⟩
    · rw [holderOf_snoc]
      dsimp only
      show (if l = l' then _ else s.mx l).owner = _
      by_cases hl : l = l'
      · subst hl; simp
      · rw [if_neg hl, if_neg (fun e => hl e.symm)]; exact h.owner l
    · rw [e] at hi
      by_cases hit : i = t
      · subst hit; rw [hp] at hi; cases hi
      · rw [show ((s.setOwner l' (some t) (s.mx l').poisoned).goto t c).thr i = s.thr i by
          simp [Sys.goto, Sys.setOwner, hit]]
        exact h.quiet i hi
    · rw [panicked_snoc, h.poison l]
      simp only [e]
      show _ ↔ (if l = l' then _ else s.mx l).poisoned = true ∨
        ∃ i, (if l = l' then _ else s.mx l).owner = some i ∧ _
      by_cases hl : l = l'
      · subst hl
        simp only [if_true, hf]
        constructor
        · rintro ((x | ⟨i, x, _⟩) | ⟨x, _⟩)
          · exact Or.inl x
          · cases x
          · cases x
        · rintro (x | ⟨i, x, y⟩)
          · exact Or.inl (Or.inl x)
          · cases x; rw [hp] at y; cases y
      · simp only [if_neg hl]
        exact ⟨fun x => x.elim id fun x => (nomatch x.1), Or.inl⟩
  cases st with
  | call e hm =>
    refine move _ s.ws _ nofun nofun nofun ?_ hg
    rw [e]; nofun
  | @acq l' _ _ e hf =>
    refine take l' _ hf ?_ hg
    cases hp : (s.thr t).panicking with
    | false => rfl
    | true => have := h.quiet t hp; rw [e] at this; exact this.elim
  | @tryYes l' _ _ e hf =>
    refine take l' _ hf ?_ hg
    cases hp : (s.thr t).panicking with
    | false => rfl
    | true => have := h.quiet t hp; rw [e] at this; exact this.elim
  | tryNo e hf =>
    refine move _ s.ws _ nofun nofun nofun (fun hp => ?_) hg
    have := h.quiet t hp; rw [e] at this; exact this.elim
  | @rel l' k e =>
    have ho : (s.mx l').owner = some t := by
      have := h.good t
      rw [e] at this
      exact of_decide_eq_true this.1
    have ep : ∀ i, (((s.setOwner l' none ((s.mx l').poisoned || (s.thr t).panicking)).goto t k).thr i).panicking
        = (s.thr i).panicking := by
      intro i
      by_cases hi : i = t
      · subst hi; simp [Sys.goto, Sys.setOwner]
      · simp [Sys.goto, Sys.setOwner, hi]
    refine ⟨hg, fun l => ?_, fun i hi => ?_, fun l => ?_⟩
    · rw [holderOf_snoc]
      dsimp only
      show (if l = l' then _ else s.mx l).owner = _
      by_cases hl : l = l'
      · subst hl; simp
      · rw [if_neg hl, if_neg (fun e => hl e.symm)]; exact h.owner l
    · rw [ep] at hi
      by_cases hit : i = t
      · subst hit
        rw [code_goto]
        have := h.quiet i hi; rw [e] at this; exact this
      · rw [show ((s.setOwner l' none ((s.mx l').poisoned || (s.thr t).panicking)).goto t k).thr i = s.thr i by
          simp [Sys.goto, Sys.setOwner, hit]]
        exact h.quiet i hi
    · rw [panicked_snoc, h.poison l]
      simp only [ep]
      show _ ↔ (if l = l' then _ else s.mx l).poisoned = true ∨
        ∃ i, (if l = l' then _ else s.mx l).owner = some i ∧ _
      by_cases hl : l = l'
      · subst hl
        simp only [if_true, ho, Bool.or_eq_true]
        constructor
        · rintro ((x | ⟨i, x, y⟩) | ⟨x, _⟩)
          · exact Or.inl (Or.inl x)
          · cases x; exact Or.inl (Or.inr y)
          · cases x
        · rintro ((x | x) | ⟨i, x, y⟩)
          · exact Or.inl (Or.inl x)
          · exact Or.inl (Or.inr ⟨t, rfl, x⟩)
          · cases x
      · simp only [if_neg hl]
        exact ⟨fun x => x.elim id fun x => (nomatch x.1), Or.inl⟩
  | @use f k w e hw =>
    refine move _ w _ nofun nofun nofun (fun hp => ?_) hg
    have := h.quiet t hp; rw [e] at this; exact this
  | left e =>
    refine move _ s.ws _ nofun nofun nofun (fun hp => ?_) hg
    have := h.quiet t hp; rw [e] at this; exact this.1
  | right e =>
    refine move _ s.ws _ nofun nofun nofun (fun hp => ?_) hg
    have := h.quiet t hp; rw [e] at this; exact this.2
  | @crash f e =>
    refine ⟨hg, fun l => ?_, fun i hi => ?_, fun l => ?_⟩
    · rw [holderOf_snoc]; exact h.owner l
    · by_cases hit : i = t
      · subst hit
        simp only [Sys.unwind, if_true]
        exact LawfulLocks.noAcq_unwind env f _
      · simp only [Sys.unwind, if_neg hit] at hi ⊢
        exact h.quiet i hi
    · rw [panicked_snoc, h.poison l]
      show _ ↔ (s.mx l).poisoned = true ∨ ∃ i, (s.mx l).owner = some i ∧ ((s.unwind t _).thr i).panicking = true
      constructor
      · rintro ((x | ⟨i, x, y⟩) | ⟨_, x⟩)
        · exact Or.inl x
        · refine Or.inr ⟨i, x, ?_⟩
          by_cases hit : i = t
          · subst hit; simp [Sys.unwind]
          · simp only [Sys.unwind, if_neg hit]; exact y
        · refine Or.inr ⟨t, (h.owner l).trans x, ?_⟩
          simp [Sys.unwind]
      · rintro (x | ⟨i, x, y⟩)
        · exact Or.inl (Or.inl x)
        · by_cases hit : i = t
          · subst hit
            exact Or.inr ⟨rfl, (h.owner l).symm.trans x⟩
          · simp only [Sys.unwind, if_neg hit] at y
            exact Or.inl (Or.inr ⟨i, x, y⟩)

theorem poisoning_exec [LockEnv ε σ] [LawfulLocks ε σ] {scr : Bool} {env : ε} {s s' : Sys σ} {tr : List (Nat × Label σ)}
    (e : Exec env (Typed scr) s tr s') :
    ∀ tr0, Poisoning scr tr0 s → Poisoning scr (tr0 ++ tr) s' := by
  induction e with
  | nil s => intro tr0 h; simpa using h
  | cons st _ ih =>
    intro tr0 h
    have := ih _ (poisoning_step h st)
    simpa using this

theorem poisoning_init (scr : Bool) (ws : σ) : Poisoning scr [] (Sys.init ws) := by
  refine ⟨good_init _ _ ws, fun l => rfl, fun t h => (by cases h), fun l => ?_⟩
  constructor
  · rintro ⟨a, t, b, e, _⟩
    cases a <;> cases e
  · rintro (h | ⟨t, h, _⟩) <;> cases h

theorem poisoned_iff [LockEnv ε σ] [LawfulLocks ε σ] (scr : Bool) (env : ε) (ws : σ)
    (tr : List (Nat × Label σ)) (s : Sys σ)
    (e : Exec env (Typed scr) (Sys.init ws) tr s) (l : LockId) (hf : holderOf l tr = none) :
    (s.mx l).poisoned = true ↔ PanickedHolding l tr := by
  have h := poisoning_exec e [] (poisoning_init scr ws)
  rw [List.nil_append] at h
  rw [h.poison l]
  constructor
  · exact Or.inl
  · rintro (x | ⟨t, x, _⟩)
    · exact x
    · rw [h.owner l, hf] at x; cases x

/-! ## Code with locks -/

theorem pm_bind {σ α β : Type} (m : PM σ α) (f : α → PM σ β) (s : PSt σ) :
    (m >>= f) s = match m s with
      | .ok a s' => f a s'
      | .err e s' => .err e s'
      | .panic s' => .panic s'
      | .abort s' => .abort s'
      | .stop w => .stop w := rfl

theorem withLock_poisoned {σ α : Type} {l : LockId} {m : PM σ α} {s : PSt σ} (h : s.poisoned l = true) :
    withLock l m s = raise s := by
  unfold withLock; rw [if_pos h]

theorem withLock_ofM {α : Type} {l : LockId} {m : M α} {s : PSt US} (h : s.poisoned l = false) :
    withLock l (ofM m) s = ofM m s := by
  unfold withLock
  rw [if_neg (by rw [h]; nofun)]
  unfold ofM
  cases m s.st <;> rfl

theorem withLock2_ofM {α : Type} {l l' : LockId} {m : M α} {s : PSt US} (h : s.poisoned l = false)
    (h' : s.poisoned l' = false) : withLock l (withLock l' (ofM m)) s = ofM m s := by
  rw [withLock, if_neg (by rw [h]; nofun), withLock_ofM h']
  unfold ofM
  cases m s.st <;> rfl

theorem withLock_ofW {α : Type} {l : LockId} {m : WM α} {s : PSt WinSt} (h : s.poisoned l = false) :
    withLock l (ofW m) s = ofW m s := by
  unfold withLock
  rw [if_neg (by rw [h]; nofun)]
  unfold ofW
  cases m s.st <;> rfl

theorem withLock2_ofW {α : Type} {l l' : LockId} {m : WM α} {s : PSt WinSt} (h : s.poisoned l = false)
    (h' : s.poisoned l' = false) : withLock l (withLock l' (ofW m)) s = ofW m s := by
  rw [withLock, if_neg (by rw [h]; nofun), withLock_ofW h']
  unfold ofW
  cases m s.st <;> rfl

theorem ofM_bind {α β : Type} (m : M α) (f : α → M β) (s : PSt US) :
    ofM (m >>= f) s = match ofM m s with
      | .ok a s' => ofM (f a) s'
      | .err e s' => .err e s'
      | .panic s' => .panic s'
      | .abort s' => .abort s'
      | .stop w => .stop w := by
  rw [ofM, ofM, M.bind_apply]
  cases m s.st <;> rfl

/-- Code `p` does what `m` does, as long as the locks of the terminal are not poisoned. -/
def LikeM (p : PM US Unit) (m : M Unit) : Prop :=
  ∀ s : PSt US, s.poisoned .reader = false → s.poisoned .writer = false → p s = ofM m s

theorem LikeM.bind {p q : PM US Unit} {m n : M Unit} (h : LikeM p m) (h' : LikeM q n) :
    LikeM (do p; q) (do m; n) := by
  intro s hr hw
  rw [pm_bind, ofM_bind, h s hr hw, ofM]
  cases m s.st with
  | ok a s' => exact h' { s with st := s' } hr hw
  | err e s' => rfl
  | stop w => rfl

theorem LikeM.print {p : PM US Unit} {m : M Unit} (h : LikeM p m) : LikeM (printP p) (printErr m) := by
  intro s hr hw
  rw [printP, h s hr hw, ofM, ofM, printErr]
  cases m s.st <;> rfl

theorem LikeM.dropWith {p q : PM US Unit} {m n : M Unit} (h : LikeM p m) (h' : LikeM q n)
    (hm : ∀ s e s', m s ≠ .err e s') : LikeM (dropWith p q) (do m; n) := by
  intro s hr hw
  rw [Mortal.dropWith, ofM_bind, h s hr hw, ofM]
  cases hms : m s.st with
  | ok a s' => exact h' { s with st := s' } hr hw
  | err e s' => exact (hm _ _ _ hms).elim
  | stop w => rfl

theorem likeM_writer (m : M Unit) : LikeM (withLock .writer (ofM m)) m := fun _ _ hw => withLock_ofM hw

/-- Without poisoned locks the drop of a screen is the one of `Model/ScreenUnix.lean`. -/
theorem screenDropP_clean (env : REnv) (st : PrepareState) : LikeM (screenDropP env st) (screenDrop env st) := by
  refine LikeM.dropWith (LikeM.print (LikeM.bind (fun _ hr hw => withLock2_ofM hr hw) (likeM_writer _)))
    (likeM_writer _).print ?_
  intro s e s' h
  unfold printErr at h
  split at h <;> cases h

theorem restoreP_poisoned (env : REnv) (st : PrepareState) (s : PSt US)
    (h : s.poisoned .reader = true ∨ s.poisoned .writer = true) :
    (s.panicking = true → restoreP env st s = .abort s) ∧
    (s.panicking = false → ∃ p, restoreP env st s = .panic ⟨s.st, p, true⟩ ∧
      p .writer = s.poisoned .writer) := by
  unfold restoreP
  cases hr : s.poisoned .reader with
  | true =>
    rw [withLock_poisoned hr]
    unfold raise
    exact ⟨fun hp => if_pos hp, fun hp => ⟨s.poisoned, if_neg (by rw [hp]; nofun), rfl⟩⟩
  | false =>
    have hw : s.poisoned .writer = true := h.resolve_left (by rw [hr]; nofun)
    rw [withLock, if_neg (by rw [hr]; nofun), withLock_poisoned hw]
    unfold raise
    refine ⟨fun hp => by rw [if_pos hp], fun hp => ⟨_, by rw [if_neg (by rw [hp]; nofun)]; rfl, ?_⟩⟩
    exact if_neg nofun

/-- Only the writer has changed. -/
def OnlyW (s s' : US) : Prop := ∃ w, s' = { s with w := w }

instance : WFree OnlyW where
  refl s := ⟨s.w, rfl⟩
  trans := by rintro a b c ⟨w, rfl⟩ ⟨w', rfl⟩; exact ⟨w', rfl⟩
  updW s w := ⟨w, rfl⟩

theorem keeps_cursorMode (env : REnv) (m : CursorMode) : Keeps OnlyW (termCursorMode env m) :=
  keeps_withWriter env (keeps_liftW _)

/-- With a poisoned lock of the terminal the drop of a screen neither restores anything nor returns. -/
theorem screenDropP_poisoned (env : REnv) (st : PrepareState) (s : PSt US)
    (h : s.poisoned .reader = true ∨ s.poisoned .writer = true) :
    (s.panicking = true → screenDropP env st s = .abort s) ∧
    (s.panicking = false → s.poisoned .writer = true → ∃ p, screenDropP env st s = .abort ⟨s.st, p, true⟩) ∧
    (s.panicking = false → s.poisoned .writer = false →
      (∃ s', screenDropP env st s = .panic s' ∧ OnlyW s.st s'.st) ∨ ∃ w, screenDropP env st s = .stop w) := by
  obtain ⟨h1, h2⟩ := restoreP_poisoned env st s h
  unfold screenDropP dropWith printP
  simp only [pm_bind]
  refine ⟨fun hp => by rw [h1 hp], fun hp hw => ?_, fun hp hw => ?_⟩
  · obtain ⟨p, e, hpw⟩ := h2 hp
    rw [e]
    dsimp only
    unfold termDropP printP
    rw [withLock_poisoned (by show p .writer = true; rw [hpw, hw])]
    exact ⟨p, rfl⟩
  · obtain ⟨p, e, hpw⟩ := h2 hp
    rw [e]
    dsimp only
    unfold termDropP printP
    rw [withLock_ofM (by show p .writer = false; rw [hpw, hw])]
    unfold ofM
    have hk := keeps_cursorMode env .normal s.st
    dsimp only
    cases hc : termCursorMode env .normal s.st with
    | ok a s' => rw [hc] at hk; exact Or.inl ⟨_, rfl, hk⟩
    | err e s' => rw [hc] at hk; exact Or.inl ⟨_, rfl, hk⟩
    | stop w => exact Or.inr ⟨w, rfl⟩

/-! ## Windows -/

theorem ofW_bind {α β : Type} (m : WM α) (f : α → WM β) (s : PSt WinSt) :
    ofW (m >>= f) s = match ofW m s with
      | .ok a s' => ofW (f a) s'
      | .err e s' => .err e s'
      | .panic s' => .panic s'
      | .abort s' => .abort s'
      | .stop w => .stop w := by
  rw [ofW, ofW, sm_bind]
  cases m s.st <;> rfl

/-- Code `p` does what `m` does, as long as the locks of the terminal are not poisoned. -/
def LikeW (p : PM WinSt Unit) (m : WM Unit) : Prop :=
  ∀ s : PSt WinSt, s.poisoned .reader = false → s.poisoned .writer = false → p s = ofW m s

theorem LikeW.bind {p q : PM WinSt Unit} {m n : WM Unit} (h : LikeW p m) (h' : LikeW q n) :
    LikeW (do p; q) (do m; n) := by
  intro s hr hw
  rw [pm_bind, ofW_bind, h s hr hw, ofW]
  cases m s.st with
  | ok a s' => exact h' { s with st := s' } hr hw
  | err e s' => rfl
  | stop w => rfl

theorem LikeW.print {p : PM WinSt Unit} {m : WM Unit} (h : LikeW p m) : LikeW (printP p) (SM.ignore m) := by
  intro s hr hw
  rw [printP, h s hr hw, ofW, ofW, SM.ignore]
  cases m s.st <;> rfl

theorem LikeW.dropWith {p q : PM WinSt Unit} {m n : WM Unit} (h : LikeW p m) (h' : LikeW q n)
    (hm : ∀ s e s', m s ≠ .err e s') : LikeW (dropWith p q) (do m; n) := by
  intro s hr hw
  rw [Mortal.dropWith, ofW_bind, h s hr hw, ofW]
  cases hms : m s.st with
  | ok a s' => exact h' { s with st := s' } hr hw
  | err e s' => exact (hm _ _ _ hms).elim
  | stop w => rfl

theorem likeW_writer (m : WM Unit) : LikeW (withLock .writer (ofW m)) m := fun _ _ hw => withLock_ofW hw

theorem winScreenDropP_clean (t : WTerm) (x : WScreen) : LikeW (winScreenDropP t x) (winScreenDrop t x) := by
  refine LikeW.dropWith (LikeW.print (LikeW.bind (fun _ hr hw => withLock2_ofW hr hw) (likeW_writer _)))
    (LikeW.print (LikeW.bind (likeW_writer _) (likeW_writer _))) ?_
  intro s e s' h
  unfold SM.ignore at h
  split at h
  · cases h
  · rename_i h' ; exact h' e s' h

theorem winScreenDropP_poisoned (t : WTerm) (x : WScreen) (s : PSt WinSt) (hp : s.panicking = true)
    (h : s.poisoned .reader = true ∨ s.poisoned .writer = true) :
    winScreenDropP t x s = .abort s := by
  have : withLock .reader (withLock .writer (ofW (winRestore t x.state))) s = .abort s := by
    cases hr : s.poisoned .reader with
    | true => rw [withLock_poisoned hr]; exact if_pos hp
    | false =>
      have hw : s.poisoned .writer = true := h.resolve_left (by rw [hr]; nofun)
      rw [withLock, if_neg (by rw [hr]; nofun), withLock_poisoned hw]
      unfold raise
      rw [if_pos hp]
  unfold winScreenDropP dropWith printP
  simp only [pm_bind, this]

end Mortal
