import Verif.Spec.Console

/-! # Reasoning about code that calls a console -/

namespace Mortal
open Spec

theorem sm_bind {σ α β : Type} (m : SM σ α) (f : α → SM σ β) (s : σ) : (m >>= f) s =
    match m s with
    | .ok a s' => f a s'
    | .err e s' => .err e s'
    | .stop w => .stop w := rfl

theorem sm_pure {σ α : Type} (a : α) (s : σ) : (pure a : SM σ α) s = .ok a s := rfl
theorem sm_get {σ : Type} (s : σ) : (SM.get : SM σ σ) s = .ok s s := rfl
theorem sm_modify {σ : Type} (f : σ → σ) (s : σ) : SM.modify f s = .ok () (f s) := rfl
theorem sm_throw {σ α : Type} (e : IoErr) (s : σ) : (SM.throw e : SM σ α) s = .err e s := rfl
theorem sm_halt {σ α : Type} (w : Stop) (s : σ) : (SM.halt w : SM σ α) s = .stop w := rfl
theorem sm_ofPanics_some {σ α : Type} (a : α) (s : σ) :
    (SM.ofPanics (some a) : SM σ α) s = .ok a s := rfl
theorem sm_ofPanics_none {σ α : Type} (s : σ) :
    (SM.ofPanics none : SM σ α) s = .stop .panic := rfl

/-! ## Records -/

theorem con_play_append (u : UEnv) (k : Nat) (a b : List WEv) (c : Con) :
    c.play u k (a ++ b) = (c.play u k a).bind (Con.play u k b) := by
  induction a generalizing c with
  | nil => rfl
  | cons e a ih =>
    simp only [List.cons_append, Con.play]
    cases c.step u k e with
    | none => rfl
    | some c' => simp only [Option.bind_some]; exact ih c'

theorem con_runs_append {u : UEnv} {k : Nat} {a b : List WEv} {c : Con} (h : c.Runs u k (a ++ b)) :
    c.Runs u k a ∧ ∀ c', c.play u k a = some c' → c'.Runs u k b := by
  induction a generalizing c with
  | nil =>
    refine ⟨trivial, fun c' e => ?_⟩
    simp only [Con.play, Option.some.injEq] at e
    subst e; exact h
  | cons e a ih =>
    obtain ⟨h1, h2⟩ := h
    refine ⟨⟨h1, fun c' e' => (ih (h2 c' e')).1⟩, fun c' e' => ?_⟩
    simp only [Con.play] at e'
    cases hs : c.step u k e with
    | none => rw [hs] at e'; cases e'
    | some c1 =>
      rw [hs, Option.bind_some] at e'
      exact (ih (h2 c1 hs)).2 c' e'

theorem con_play_one (u : UEnv) (k : Nat) (e : WEv) (c : Con) :
    c.play u k [e] = c.step u k e := by
  simp only [Con.play]
  cases c.step u k e <;> rfl

theorem runs_cons {u : UEnv} {k : Nat} {e : WEv} {l : List WEv} {c c' : Con}
    (h : c.Possible k e) (hs : c.step u k e = some c') (hr : c'.Runs u k l) :
    c.Runs u k (e :: l) := by
  refine ⟨h, fun c1 h1 => ?_⟩
  rw [hs, Option.some.injEq] at h1
  subst h1; exact hr

/-- Events that are not calls. -/
def IsHap : WEv → Prop
  | .call _ _ => False
  | _ => True

theorem haps_play (u : UEnv) (k : Nat) {l : List WEv} (h : ∀ e ∈ l, IsHap e) (c : Con) :
    ∃ q, c.play u k l = some { c with queue := q } := by
  induction l generalizing c with
  | nil => exact ⟨c.queue, rfl⟩
  | cons e l ih =>
    have he := h e (by simp)
    have hl := fun e' he' => h e' (List.mem_cons_of_mem _ he')
    obtain ⟨q, hq⟩ : ∃ q, c.step u k e = some { c with queue := q } := by
      cases e with
      | call _ _ => exact he.elim
      | input r => exact ⟨_, rfl⟩
      | ctrl t a w =>
        cases w
        · exact ⟨c.queue, rfl⟩
        · exact ⟨_, rfl⟩
    obtain ⟨q', hq'⟩ := ih hl { c with queue := q }
    refine ⟨q', ?_⟩
    simp only [Con.play, hq, Option.bind_some]
    exact hq'

/-- Only the schedule, the record and the pending signal may differ. -/
structure SameTerm (s s' : WinSt) : Prop where
  outH : s'.outH = s.outH
  theme : s'.theme = s.theme
  rd : s'.rd = s.rd
  catchSet : s'.catchSet = s.catchSet

theorem SameTerm.refl (s : WinSt) : SameTerm s s := ⟨rfl, rfl, rfl, rfl⟩
theorem SameTerm.trans {a b c : WinSt} (h : SameTerm a b) (h' : SameTerm b c) :
    SameTerm a c :=
  ⟨h'.outH.trans h.outH, h'.theme.trans h.theme, h'.rd.trans h.rd, h'.catchSet.trans h.catchSet⟩

theorem hap_run (s : WinSt) (e : WHap) : ∃ ev, IsHap ev ∧ (e.run s).log = s.log ++ [ev] ∧
    SameTerm s (e.run s) ∧ (e.run s).os = s.os := by
  cases e with
  | input r => exact ⟨.input r, trivial, rfl, ⟨rfl, rfl, rfl, rfl⟩, rfl⟩
  | ctrl t w =>
    simp only [WHap.run, ctrlHandler]
    split
    · split
      · exact ⟨.ctrl _ _ _, trivial, rfl, ⟨rfl, rfl, rfl, rfl⟩, rfl⟩
      · exact ⟨.ctrl _ _ _, trivial, rfl, ⟨rfl, rfl, rfl, rfl⟩, rfl⟩
    · exact ⟨.ctrl _ _ _, trivial, rfl, ⟨rfl, rfl, rfl, rfl⟩, rfl⟩

theorem haps_run (l : List WHap) (s : WinSt) : ∃ evs, (∀ e ∈ evs, IsHap e) ∧
    (l.foldl WHap.run s).log = s.log ++ evs ∧ SameTerm s (l.foldl WHap.run s) ∧
    (l.foldl WHap.run s).os = s.os := by
  induction l generalizing s with
  | nil => exact ⟨[], by simp, by simp, .refl s, rfl⟩
  | cons e l ih =>
    obtain ⟨ev, h1, h2, h3, h4⟩ := hap_run s e
    obtain ⟨evs, g1, g2, g3, g4⟩ := ih (e.run s)
    refine ⟨ev :: evs, ?_, ?_, h3.trans g3, g4.trans h4⟩
    · intro e' he'
      rcases List.mem_cons.mp he' with rfl | h
      · exact h1
      · exact g1 e' h
    · simp only [List.foldl_cons]
      rw [g2, h2]; simp

/-- A call: some events, then the call itself. -/
theorem conCall_ok {c : ConCall} {s s' : WinSt} {a : Ans} (h : conCall c s = .ok a s') :
    ∃ evs, (∀ e ∈ evs, IsHap e) ∧ s'.log = s.log ++ evs ++ [.call c a] ∧ SameTerm s s' ∧
      s'.os.length + 1 = s.os.length := by
  unfold conCall at h
  cases ho : s.os with
  | nil => rw [ho] at h; cases h
  | cons st os =>
    rw [ho] at h
    cases h
    obtain ⟨evs, h1, h2, h3, h4⟩ := haps_run st.haps { s with os := os }
    exact ⟨evs, h1, by simp only [h2], ⟨h3.outH, h3.theme, h3.rd, h3.catchSet⟩, by simp [h4]⟩

theorem conCall_not_err {c : ConCall} {s s' : WinSt} {e : IoErr} : conCall c s ≠ .err e s' := by
  unfold conCall
  cases s.os <;> exact fun h => nomatch h

/-! ## Rules -/

/-- Statements that do not depend on the queue, the schedule, the record and the pending signal. -/
def Stable (P : Con → WinSt → Prop) : Prop :=
  ∀ c s q s', P c s → SameTerm s s' → P { c with queue := q } s'

/-- Code that only adds to the record. -/
def Grows {α : Type} (m : WM α) : Prop :=
  ∀ s, (∀ a s', m s = .ok a s' → ∃ D, s'.log = s.log ++ D) ∧
    (∀ e s', m s = .err e s' → ∃ D, s'.log = s.log ++ D)

/-- What a piece of code does to a console: started with `P`, it ends with `Q` or with the error
statement `E`, whatever the console answers. -/
structure Does {α : Type} (u : UEnv) (k : Nat) (P : Con → WinSt → Prop) (m : WM α)
    (Q : α → Con → WinSt → Prop) (E : IoErr → Con → WinSt → Prop) : Prop where
  grows : Grows m
  ok : ∀ s c, P c s → ∀ a s' D, m s = .ok a s' → s'.log = s.log ++ D → c.Runs u k D →
    ∃ c', c.play u k D = some c' ∧ Q a c' s'
  err : ∀ s c, P c s → ∀ e s' D, m s = .err e s' → s'.log = s.log ++ D → c.Runs u k D →
    ∃ c', c.play u k D = some c' ∧ E e c' s'

variable {u : UEnv} {k : Nat} {α β : Type}

theorem Does.pure {P : Con → WinSt → Prop} {E : IoErr → Con → WinSt → Prop} (a : α) :
    Does u k P (pure a) (fun b c s => b = a ∧ P c s) E := by
  refine ⟨?_, ?_, ?_⟩
  · intro s
    constructor
    · intro b s' h; cases h; exact ⟨[], by simp⟩
    · intro e s' h; cases h
  · intro s c hp b s' D h hl hr
    cases h
    have : D = [] := by simpa using hl
    subst this
    exact ⟨c, rfl, rfl, hp⟩
  · intro s c hp e s' D h; cases h

theorem Does.mono {P P' : Con → WinSt → Prop} {m : WM α} {Q Q' : α → Con → WinSt → Prop}
    {E E' : IoErr → Con → WinSt → Prop} (h : Does u k P m Q E) (hp : ∀ c s, P' c s → P c s)
    (hq : ∀ a c s, Q a c s → Q' a c s) (he : ∀ e c s, E e c s → E' e c s) :
    Does u k P' m Q' E' := by
  refine ⟨h.grows, ?_, ?_⟩
  · intro s c hp' a s' D e hl hr
    obtain ⟨c', e1, e2⟩ := h.ok s c (hp c s hp') a s' D e hl hr
    exact ⟨c', e1, hq _ _ _ e2⟩
  · intro s c hp' a s' D e hl hr
    obtain ⟨c', e1, e2⟩ := h.err s c (hp c s hp') a s' D e hl hr
    exact ⟨c', e1, he _ _ _ e2⟩

theorem Does.bind {P : Con → WinSt → Prop} {m : WM α} {f : α → WM β}
    {R : α → Con → WinSt → Prop} {Q : β → Con → WinSt → Prop} {E : IoErr → Con → WinSt → Prop}
    (h : Does u k P m R E) (hf : ∀ a, Does u k (R a) (f a) Q E) : Does u k P (m >>= f) Q E := by
  refine ⟨?_, ?_, ?_⟩
  · intro s
    simp only [sm_bind]
    cases hm : m s with
    | stop w => constructor <;> (intro _ _ e; cases e)
    | err e s1 =>
      constructor
      · intro a s' e'; cases e'
      · intro e' s' ee; cases ee
        exact (h.grows s).2 e s1 hm
    | ok a s1 =>
      obtain ⟨D, d⟩ := (h.grows s).1 a s1 hm
      constructor
      · intro b s' e
        obtain ⟨D', d'⟩ := ((hf a).grows s1).1 b s' e
        exact ⟨D ++ D', by rw [d', d, List.append_assoc]⟩
      · intro b s' e
        obtain ⟨D', d'⟩ := ((hf a).grows s1).2 b s' e
        exact ⟨D ++ D', by rw [d', d, List.append_assoc]⟩
  · intro s c hp b s' D e hl hr
    simp only [sm_bind] at e
    cases hm : m s with
    | stop w => rw [hm] at e; cases e
    | err e1 s1 => rw [hm] at e; cases e
    | ok a s1 =>
      rw [hm] at e
      dsimp only at e
      obtain ⟨D1, d1⟩ := (h.grows s).1 a s1 hm
      obtain ⟨D2, d2⟩ := ((hf a).grows s1).1 b s' e
      have hD : D = D1 ++ D2 := by
        rw [d2, d1, List.append_assoc] at hl
        exact (List.append_cancel_left hl).symm
      subst hD
      obtain ⟨r1, r2⟩ := con_runs_append hr
      obtain ⟨c1, p1, q1⟩ := h.ok s c hp a s1 D1 hm d1 r1
      obtain ⟨c2, p2, q2⟩ := (hf a).ok s1 c1 q1 b s' D2 e d2 (r2 c1 p1)
      exact ⟨c2, by rw [con_play_append, p1, Option.bind_some, p2], q2⟩
  · intro s c hp b s' D e hl hr
    simp only [sm_bind] at e
    cases hm : m s with
    | stop w => rw [hm] at e; cases e
    | err e1 s1 =>
      rw [hm] at e
      dsimp only at e
      obtain ⟨rfl, rfl⟩ : e1 = b ∧ s1 = s' := by injection e with e1 e2; exact ⟨e1, e2⟩
      exact h.err s c hp e1 s1 D hm hl hr
    | ok a s1 =>
      rw [hm] at e
      dsimp only at e
      obtain ⟨D1, d1⟩ := (h.grows s).1 a s1 hm
      obtain ⟨D2, d2⟩ := ((hf a).grows s1).2 b s' e
      have hD : D = D1 ++ D2 := by
        rw [d2, d1, List.append_assoc] at hl
        exact (List.append_cancel_left hl).symm
      subst hD
      obtain ⟨r1, r2⟩ := con_runs_append hr
      obtain ⟨c1, p1, q1⟩ := h.ok s c hp a s1 D1 hm d1 r1
      obtain ⟨c2, p2, q2⟩ := (hf a).err s1 c1 q1 b s' D2 e d2 (r2 c1 p1)
      exact ⟨c2, by rw [con_play_append, p1, Option.bind_some, p2], q2⟩

theorem Grows.bind {m : WM α} {f : α → WM β} (h : Grows m) (hf : ∀ a, Grows (f a)) :
    Grows (m >>= f) :=
  (Does.bind (u := demoEnv) (k := 0) (P := fun _ _ => False)
    (Q := fun _ _ _ => False) (E := fun _ _ _ => False) (R := fun _ _ _ => False)
    ⟨h, fun _ _ h => h.elim, fun _ _ h => h.elim⟩
    (fun a => ⟨hf a, fun _ _ h => h.elim, fun _ _ h => h.elim⟩)).grows

theorem Grows.pure (a : α) : Grows (pure a : WM α) :=
  (Does.pure (u := demoEnv) (k := 0) (P := fun _ _ => False)
    (E := fun _ _ _ => False) a).grows

/-- A fact known at the start. -/
theorem Does.assume {P : Con → WinSt → Prop} {m : WM α} {Q : α → Con → WinSt → Prop}
    {E : IoErr → Con → WinSt → Prop} {p : Prop} (hg : Grows m) (h : p → Does u k P m Q E) :
    Does u k (fun c s => p ∧ P c s) m Q E :=
  ⟨hg, fun s c hp => (h hp.1).ok s c hp.2, fun s c hp => (h hp.1).err s c hp.2⟩

theorem Does.modify {P : Con → WinSt → Prop} {Q : Unit → Con → WinSt → Prop}
    {E : IoErr → Con → WinSt → Prop} {f : WinSt → WinSt} (hf : ∀ s, (f s).log = s.log)
    (h : ∀ c s, P c s → Q () c (f s)) : Does u k P (SM.modify f) Q E := by
  refine ⟨?_, ?_, ?_⟩
  · intro s
    constructor
    · intro b s' e; cases e; exact ⟨[], by simp [hf]⟩
    · intro e s' h; cases h
  · intro s c hp b s' D e hl hr
    cases e
    have : D = [] := by rw [hf] at hl; simpa using hl
    subst this
    exact ⟨c, rfl, h c s hp⟩
  · intro s c hp e s' D h; cases h

theorem Does.get {P : Con → WinSt → Prop} {E : IoErr → Con → WinSt → Prop} :
    Does u k P SM.get (fun a c s => a = s ∧ P c s) E := by
  refine ⟨?_, ?_, ?_⟩
  · intro s
    constructor
    · intro b s' e; cases e; exact ⟨[], by simp⟩
    · intro e s' h; cases h
  · intro s c hp b s' D e hl hr
    cases e
    have : D = [] := by simpa using hl
    subst this
    exact ⟨c, rfl, rfl, hp⟩
  · intro s c hp e s' D h; cases h

theorem Does.throw {P : Con → WinSt → Prop} {Q : α → Con → WinSt → Prop} (e : IoErr) :
    Does u k P (SM.throw e) Q (fun e' c s => e' = e ∧ P c s) := by
  refine ⟨?_, ?_, ?_⟩
  · intro s
    constructor
    · intro b s' e; cases e
    · intro e s' h; cases h; exact ⟨[], by simp⟩
  · intro s c hp b s' D e hl hr; cases e
  · intro s c hp e s' D h hl hr
    cases h
    have : D = [] := by simpa using hl
    subst this
    exact ⟨c, rfl, rfl, hp⟩

theorem Does.halt {P : Con → WinSt → Prop} {Q : α → Con → WinSt → Prop}
    {E : IoErr → Con → WinSt → Prop} (w : Stop) : Does u k P (SM.halt w) Q E :=
  ⟨fun _ => ⟨fun _ _ e => (nomatch e), fun _ _ e => (nomatch e)⟩,
    fun _ _ _ _ _ _ e => (nomatch e), fun _ _ _ _ _ _ e => (nomatch e)⟩

theorem Does.ofPanics {P : Con → WinSt → Prop} {E : IoErr → Con → WinSt → Prop} (x : Panics α) :
    Does u k P (SM.ofPanics x) (fun a c s => x = some a ∧ P c s) E := by
  cases x with
  | none => exact .halt .panic
  | some a =>
    exact Does.mono (Does.pure (E := E) a) (fun _ _ h => h)
      (fun _ _ _ h => ⟨by rw [h.1], h.2⟩) (fun _ _ _ h => h)

theorem Does.frame {P : Con → WinSt → Prop} {m : WM α} {Q : α → Con → WinSt → Prop}
    {E : IoErr → Con → WinSt → Prop} (h : Does u k P m Q E) (p : Prop) :
    Does u k (fun c s => p ∧ P c s) m (fun a c s => p ∧ Q a c s) (fun e c s => p ∧ E e c s) := by
  refine ⟨h.grows, ?_, ?_⟩
  · rintro s c ⟨hp, hc⟩ a s' D e hl hr
    obtain ⟨c', e1, e2⟩ := h.ok s c hc a s' D e hl hr
    exact ⟨c', e1, hp, e2⟩
  · rintro s c ⟨hp, hc⟩ a s' D e hl hr
    obtain ⟨c', e1, e2⟩ := h.err s c hc a s' D e hl hr
    exact ⟨c', e1, hp, e2⟩

theorem Does.when {P : Con → WinSt → Prop} {Q : Unit → Con → WinSt → Prop}
    {E : IoErr → Con → WinSt → Prop} {p : Prop} [Decidable p] {m : WM Unit}
    (h : p → Does u k P m Q E) (h' : ¬ p → ∀ c s, P c s → Q () c s) :
    Does u k P (SM.when p m) Q E := by
  unfold SM.when
  split
  · exact h ‹_›
  · exact Does.mono (Does.pure (P := P) (E := E) ()) (fun _ _ h => h)
      (fun a c s hp => h' ‹_› c s hp.2) (fun _ _ _ h => h)

theorem Does.ite {P : Con → WinSt → Prop} {Q : α → Con → WinSt → Prop}
    {E : IoErr → Con → WinSt → Prop} {p : Prop} [Decidable p] {m m' : WM α}
    (h : p → Does u k P m Q E) (h' : ¬ p → Does u k P m' Q E) :
    Does u k P (if p then m else m') Q E := by
  split
  · exact h ‹_›
  · exact h' ‹_›

theorem Does.onErr {P : Con → WinSt → Prop} {m : WM α} {Q : α → Con → WinSt → Prop}
    {E E' : IoErr → Con → WinSt → Prop} {R : Con → WinSt → Prop} {d : WM Unit}
    (h : Does u k P m Q (fun _ => R)) (hd : ∀ e, Does u k R d (fun _ => E e) E')
    (he : ∀ e e' c s, E' e' c s → E e c s) : Does u k P (SM.onErr m d) Q E := by
  refine ⟨?_, ?_, ?_⟩
  · intro s
    unfold SM.onErr
    cases hm : m s with
    | stop w => constructor <;> (intro _ _ e; cases e)
    | ok a s1 =>
      constructor
      · intro b s' e; cases e; exact (h.grows s).1 _ _ hm
      · intro b s' e; cases e
    | err e1 s1 =>
      dsimp only
      obtain ⟨D, d1⟩ := (h.grows s).2 _ _ hm
      cases hd1 : d s1 with
      | stop w => constructor <;> (intro _ _ e; cases e)
      | ok a s2 =>
        obtain ⟨D', d2⟩ := ((hd e1).grows s1).1 _ _ hd1
        constructor
        · intro b s' e; cases e
        · intro b s' e; cases e; exact ⟨D ++ D', by rw [d2, d1, List.append_assoc]⟩
      | err e2 s2 =>
        obtain ⟨D', d2⟩ := ((hd e1).grows s1).2 _ _ hd1
        constructor
        · intro b s' e; cases e
        · intro b s' e; cases e; exact ⟨D ++ D', by rw [d2, d1, List.append_assoc]⟩
  · intro s c hp a s' D e hl hr
    unfold SM.onErr at e
    cases hm : m s with
    | stop w => rw [hm] at e; cases e
    | ok a1 s1 =>
      rw [hm] at e; cases e
      exact h.ok s c hp _ _ D hm hl hr
    | err e1 s1 =>
      rw [hm] at e; dsimp only at e
      cases hd1 : d s1 <;> (rw [hd1] at e; cases e)
  · intro s c hp e0 s' D e hl hr
    unfold SM.onErr at e
    cases hm : m s with
    | stop w => rw [hm] at e; cases e
    | ok a1 s1 => rw [hm] at e; cases e
    | err e1 s1 =>
      rw [hm] at e; dsimp only at e
      obtain ⟨D1, d1⟩ := (h.grows s).2 _ _ hm
      have key : ∀ D2 (s2 : WinSt), s2.log = s1.log ++ D2 → s2.log = s.log ++ D → D = D1 ++ D2 := by
        intro D2 s2 g1 g2
        rw [g1, d1, List.append_assoc] at g2
        exact (List.append_cancel_left g2).symm
      cases hd1 : d s1 with
      | stop w => rw [hd1] at e; cases e
      | ok a s2 =>
        rw [hd1] at e; cases e
        obtain ⟨D2, d2⟩ := ((hd e0).grows s1).1 _ _ hd1
        have hD := key D2 _ d2 hl
        subst hD
        obtain ⟨r1, r2⟩ := con_runs_append hr
        obtain ⟨c1, p1, q1⟩ := h.err s c hp _ _ D1 hm d1 r1
        obtain ⟨c2, p2, q2⟩ := (hd e0).ok s1 c1 q1 _ _ D2 hd1 d2 (r2 c1 p1)
        exact ⟨c2, by rw [con_play_append, p1, Option.bind_some, p2], q2⟩
      | err e2 s2 =>
        rw [hd1] at e; cases e
        obtain ⟨D2, d2⟩ := ((hd e0).grows s1).2 _ _ hd1
        have hD := key D2 _ d2 hl
        subst hD
        obtain ⟨r1, r2⟩ := con_runs_append hr
        obtain ⟨c1, p1, q1⟩ := h.err s c hp _ _ D1 hm d1 r1
        obtain ⟨c2, p2, q2⟩ := (hd e0).err s1 c1 q1 _ _ D2 hd1 d2 (r2 c1 p1)
        exact ⟨c2, by rw [con_play_append, p1, Option.bind_some, p2], he _ _ _ _ q2⟩

theorem Does.call {P : Con → WinSt → Prop} {Q : Ans → Con → WinSt → Prop}
    {E : IoErr → Con → WinSt → Prop} (hP : Stable P) (call : ConCall)
    (h : ∀ c s a, P c s → c.Possible k (.call call a) →
      ∃ c', c.step u k (.call call a) = some c' ∧ Q a c' s)
    (hQ : ∀ a, Stable (Q a)) : Does u k P (conCall call) Q E := by
  refine ⟨?_, ?_, ?_⟩
  · intro s
    constructor
    · intro a s' e
      obtain ⟨evs, -, h2, -⟩ := conCall_ok e
      exact ⟨evs ++ [.call call a], by rw [h2, List.append_assoc]⟩
    · intro e s' h'; exact absurd h' conCall_not_err
  · intro s c hp a s' D e hl hr
    obtain ⟨evs, h1, h2, h3, -⟩ := conCall_ok e
    have hD : D = evs ++ [.call call a] := by
      rw [h2, List.append_assoc] at hl
      exact (List.append_cancel_left hl).symm
    subst hD
    obtain ⟨r1, r2⟩ := con_runs_append hr
    obtain ⟨q, hq⟩ := haps_play u k h1 c
    obtain ⟨pos, -⟩ := r2 _ hq
    obtain ⟨c', e1, e2⟩ := h _ s a (hP c s q s hp (.refl s)) pos
    refine ⟨c', by rw [con_play_append, hq, Option.bind_some, con_play_one, e1], ?_⟩
    exact hQ a c' s c'.queue s' e2 h3
  · intro s c hp e s' D h'; exact absurd h' conCall_not_err

theorem step_fail (c : Con) (call : ConCall) : c.step u k (.call call .fail) = some c := rfl

/-- A call that succeeds or fails. -/
theorem Does.boolCall {P : Con → WinSt → Prop} {Q : Unit → Con → WinSt → Prop}
    {E : IoErr → Con → WinSt → Prop} (hP : Stable P) (call : ConCall)
    (hB : ∀ (c : Con) a, c.Possible k (.call call a) → a = .fail ∨ a = .ok)
    (h : ∀ c s, P c s → c.Possible k (.call call .ok) →
      ∃ c', c.step u k (.call call .ok) = some c' ∧ Q () c' s)
    (hQ : Stable (Q ())) (hE : ∀ c s, P c s → E .os c s) :
    Does u k P (Mortal.boolCall call) Q E := by
  unfold Mortal.boolCall
  refine Does.bind (R := fun a c s => (a = .ok ∧ Q () c s) ∨ (a = .fail ∧ P c s)) ?_ ?_
  · refine Does.call hP call ?_ ?_
    · intro c s a hp pos
      rcases hB c a pos with rfl | rfl
      · exact ⟨c, step_fail c call, Or.inr ⟨rfl, hp⟩⟩
      · obtain ⟨c', e1, e2⟩ := h c s hp pos
        exact ⟨c', e1, Or.inl ⟨rfl, e2⟩⟩
    · intro a c s q s' hq hs
      rcases hq with ⟨rfl, hq⟩ | ⟨rfl, hq⟩
      · exact Or.inl ⟨rfl, hQ c s q s' hq hs⟩
      · exact Or.inr ⟨rfl, hP c s q s' hq hs⟩
  · intro a
    split
    · exact Does.mono (Does.pure (P := Q ()) (E := E) ())
        (fun c s h => by rcases h with ⟨-, h⟩ | ⟨h, -⟩; exact h; cases h)
        (fun a c s h => h.2) (fun _ _ _ h => h)
    · exact Does.mono (Does.throw (P := P) (Q := Q) .os)
        (fun c s h => by rcases h with ⟨h, -⟩ | ⟨-, h⟩; cases h; exact h)
        (fun a c s h => h) (fun e c s h => by rw [h.1]; exact hE c s h.2)
    · exact .halt _

end Mortal
