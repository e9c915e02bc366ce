import Verif.Lemmas.Unix
import Verif.Spec.Signals

/-! # Lemmas about signals -/

namespace Mortal
open Spec

theorem convSignal_pending (s : US) : convSignal s.last = (pendingSig s).map Spec.Sig.signal := by
  unfold convSignal pendingSig
  simp only [List.find?_cons, Sig.num]
  by_cases h1 : s.last = 18
  · simp [h1, Spec.Sig.signal]
  by_cases h2 : s.last = 28
  · simp [h2, Spec.Sig.signal]
  by_cases h3 : s.last = 2
  · simp [h3, Spec.Sig.signal]
  by_cases h4 : s.last = 20
  · simp [h4, Spec.Sig.signal]
  by_cases h5 : s.last = 3
  · simp [h5, Spec.Sig.signal]
  simp [h1, h2, h3, h4, h5, Ne.symm]

theorem pendingSig_num (s : US) (g : Sig) : pendingSig { s with last := g.num } = some g := by
  cases g <;> rfl

theorem pendingSig_zero (s : US) : pendingSig { s with last := 0 } = none := rfl

theorem latest_nil (o : Option Sig) : latest [] o = o := rfl

theorem latest_append (a b : List Sig) (o : Option Sig) :
    latest (a ++ b) o = latest b (latest a o) := by
  unfold latest
  rw [List.getLast?_append]
  cases b.getLast? <;> rfl

/-- Signals arrived, and none was taken. -/
def Quiet (s s' : US) : Prop :=
  ∃ new, s'.seen = s.seen ++ new ∧ pendingSig s' = latest new (pendingSig s)

/-- Signals arrived, and in between `g` was taken. -/
def Took (g : Sig) (s s' : US) : Prop :=
  ∃ n1 n2, s'.seen = s.seen ++ n1 ++ n2 ∧ latest n1 (pendingSig s) = some g ∧
    pendingSig s' = latest n2 none

theorem Quiet.same {s s' : US} (h1 : s'.seen = s.seen) (h2 : s'.last = s.last) : Quiet s s' :=
  ⟨[], by simp [h1], by simp [latest_nil, pendingSig, h2]⟩

theorem Quiet.deliver (s : US) (g : Sig) : Quiet s (Mortal.deliver s g) := by
  unfold Mortal.deliver
  split
  · exact ⟨[g], rfl, pendingSig_num s g⟩
  · exact Quiet.same rfl rfl

instance : InOnly Quiet where
  refl _ := Quiet.same rfl rfl
  trans := by
    rintro a b c ⟨n1, h1, h2⟩ ⟨n2, h3, h4⟩
    exact ⟨n1 ++ n2, by rw [h3, h1, List.append_assoc], by rw [h4, h2, latest_append]⟩
  dl := Quiet.deliver
  sc _ _ _ _ := Quiet.same rfl rfl
  wt _ _ := Quiet.same rfl rfl
  updW _ _ := Quiet.same rfl rfl
  tio _ _ := Quiet.same rfl rfl
  act _ _ := Quiet.same rfl rfl
  cfg _ _ _ := Quiet.same rfl rfl

theorem Took.after {g : Sig} {a b c : US} (h : Quiet a b) (h' : Took g b c) : Took g a c := by
  obtain ⟨n, h1, h2⟩ := h
  obtain ⟨n1, n2, h3, h4, h5⟩ := h'
  exact ⟨n ++ n1, n2, by rw [h3, h1]; simp, by rw [latest_append, ← h2, h4], h5⟩

theorem Took.before {g : Sig} {a b c : US} (h : Took g a b) (h' : Quiet b c) : Took g a c := by
  obtain ⟨n1, n2, h3, h4, h5⟩ := h
  obtain ⟨n, h1, h2⟩ := h'
  exact ⟨n1, n2 ++ n, by rw [h1, h3]; simp, h4, by rw [h2, h5, latest_append]⟩

/-- What `take_signal` does. -/
theorem takeSignal_sig (s : US) :
    match takeSignal s with
    | .ok (some sg) s' => ∃ g, Spec.Sig.signal g = sg ∧ Took g s s'
    | .ok none s' => Quiet s s'
    | .err _ s' => Quiet s s'
    | .stop _ => True := by
  unfold takeSignal
  rw [M.bind_apply]
  have h := keeps_tick (R := Quiet) s
  cases ht : tick s with
  | err e s1 => rw [ht] at h; exact h
  | stop w => trivial
  | ok r s1 =>
    rw [ht] at h
    show match (Res.ok (convSignal s1.last) { s1 with last := 0 } : Res _) with
      | .ok (some sg) s' => ∃ g, Spec.Sig.signal g = sg ∧ Took g s s'
      | .ok none s' => Quiet s s'
      | .err _ s' => Quiet s s'
      | .stop _ => True
    rw [convSignal_pending]
    obtain ⟨n, h1, h2⟩ := h
    cases hp : pendingSig s1 with
    | none => exact ⟨n, h1, by rw [← h2, hp]; rfl⟩
    | some g => exact ⟨g, rfl, n, [], by simp [h1], by rw [← h2, hp], rfl⟩

/-- What `read_input` does to signals. -/
def InSig (s : US) : Res InRes → Prop
  | .ok (.event (.signal sg)) s' => ∃ g, Spec.Sig.signal g = sg ∧ Took g s s'
  | .ok _ s' => Quiet s s'
  | .err _ s' => Quiet s s'
  | .stop _ => True

theorem InSig.after {s s1 : US} {r : Res InRes} (h : Quiet s s1) (h' : InSig s1 r) :
    InSig s r := by
  unfold InSig at h' ⊢
  split at h'
  · obtain ⟨g, h1, h2⟩ := h'
    exact ⟨g, h1, Took.after h h2⟩
  · exact Frame.trans h h'
  · exact Frame.trans h h'
  · trivial

theorem takeSignal_then {f : Option Signal → M InRes} (s : US)
    (hs : ∀ sg s1, f (some sg) s1 = .ok (.event (.signal sg)) s1)
    (hn : ∀ s1, InSig s1 (f none s1)) : InSig s ((takeSignal >>= f) s) := by
  rw [M.bind_apply]
  have h := takeSignal_sig s
  cases ht : takeSignal s with
  | err e s1 => rw [ht] at h; exact h
  | stop w => trivial
  | ok r s1 =>
    rw [ht] at h
    cases r with
    | none => exact InSig.after h (hn s1)
    | some sg => dsimp only; rw [hs]; exact h

theorem sysRead_quiet (len : Nat) (s : US) :
    match sysRead len s with
    | .ok _ s' => Quiet s s'
    | .err _ s' => Quiet s s'
    | .stop _ => True := by
  unfold sysRead
  rw [M.bind_apply]
  have h := keeps_tick (R := Quiet) s
  cases ht : tick s with
  | err e s1 => rw [ht] at h; exact h
  | stop w => trivial
  | ok r s1 =>
    rw [ht] at h
    cases r with
    | ok n => exact Frame.trans (R := Quiet) h (Quiet.same rfl rfl)
    | eintr d e => exact Frame.trans (R := Quiet) h (Ticks.deliverAll (R := Quiet) d s1)
    | fail => exact h

theorem readLoop_sig (len n : Nat) : ∀ s, InSig s (readLoop len n s) := by
  induction n with
  | zero => intro s; trivial
  | succ n ih =>
    intro s
    unfold readLoop
    rw [M.bind_apply]
    have h := sysRead_quiet len s
    cases hr : sysRead len s with
    | err e s1 => rw [hr] at h; exact h
    | stop w => trivial
    | ok r s1 =>
      rw [hr] at h
      cases r with
      | done b => exact h
      | eintr e =>
        exact InSig.after h (takeSignal_then s1 (fun _ _ => rfl) fun s2 => ih s2)

theorem readInput_sig (env : REnv) (len : Nat) (t : Option Nat) (s : US) :
    InSig s (readInput env len t s) := by
  refine takeSignal_then s (fun _ _ => rfl) fun s1 => ?_
  dsimp only
  rw [M.bind_apply]
  have h1 := keeps_waitEvent (R := Quiet) env t s1
  cases hw : waitEvent env t s1 with
  | err e s2 => rw [hw] at h1; exact h1
  | stop w => trivial
  | ok b s2 =>
    rw [hw] at h1
    cases b with
    | false => exact h1
    | true =>
      refine InSig.after h1 (takeSignal_then s2 (fun _ _ => rfl) fun s3 => ?_)
      exact readLoop_sig len _ s3

theorem readIntoBuffer_sig (env : REnv) (t : Option Nat) (s : US) :
    InSig s (readIntoBuffer env t s) := by
  have h := readInput_sig env (env.spare s.inBuf.length) t { s with inBuf := [] }
  have e : readIntoBuffer env t s =
      match readInput env (env.spare s.inBuf.length) t { s with inBuf := [] } with
      | .ok (.raw b) s' => .ok (.raw b) { s' with inBuf := s.inBuf ++ b }
      | .ok r s' => .ok r { s' with inBuf := s.inBuf }
      | .err e s' => .err e { s' with inBuf := s.inBuf }
      | .stop w => .stop w := rfl
  rw [e]
  generalize readInput env (env.spare s.inBuf.length) t { s with inBuf := [] } = r at h
  cases r with
  | stop w => trivial
  | err e s' => exact h
  | ok a s' =>
    cases a with
    | nothing => exact h
    | raw b => exact h
    | event ev => cases ev <;> exact h

/-- The account of signals of a call with result `r`. -/
def SigCall (r : URet) (s s' : US) : Prop :=
  (reportedSig r = none ∧ Quiet s s') ∨
  ∃ g, Took g s s' ∧ (reportedSig r = some (Spec.Sig.signal g) ∨ (∃ e, r = .err e) ∨
    (r = .event none ∧ g ≠ .winch ∧ s'.report.contains (Spec.Sig.signal g) = false))

/-- What `handle_signal` answers. -/
theorem handleSignal_report (env : REnv) (g : Sig) (s s' : US) (o : Option Event)
    (h : handleSignal env (Spec.Sig.signal g) s = .ok o s') :
    reportedSig (.event o) = some (Spec.Sig.signal g) ∨
      (o = none ∧ g ≠ .winch ∧ s'.report.contains (Spec.Sig.signal g) = false) := by
  have hrep : ∀ (sg : Signal) (s s' : US), g ≠ .winch → (do
      if (← getS).report.contains sg then pure (some (Event.signal sg)) else pure none : M _) s
        = .ok o s' → reportedSig (.event o) = some sg ∨
      (o = none ∧ g ≠ .winch ∧ s'.report.contains sg = false) := by
    intro sg s s' hg h
    obtain ⟨a, s1, h1, h2⟩ := M.bind_ok h
    cases h1
    split at h2
    · cases h2; exact Or.inl rfl
    · rename_i hc
      cases h2
      exact Or.inr ⟨rfl, hg, by simpa using hc⟩
  cases g
  case cont =>
    obtain ⟨a, s1, h1, h2⟩ := M.bind_ok h
    exact hrep _ _ _ (by simp) h2
  case winch =>
    obtain ⟨a, s1, h1, h2⟩ := M.bind_ok h
    cases h2
    exact Or.inl rfl
  all_goals exact hrep _ _ _ (by simp) h

theorem SigCall.handle {env : REnv} {g : Sig} {s s1 s' : US} {o : Option Event}
    (ht : Took g s s1) (h : handleSignal env (Spec.Sig.signal g) s1 = .ok o s') :
    SigCall (.event o) s s' := by
  refine Or.inr ⟨g, ht.before ((keeps_handleSignal (R := Quiet) env _).ok h), ?_⟩
  rcases handleSignal_report env g s1 s' o h with h | ⟨h1, h2⟩
  · exact Or.inl h
  · exact Or.inr (Or.inr ⟨by rw [h1], h2⟩)

theorem SigCall.handleErr {env : REnv} {g : Sig} {s s1 s' : US} {e : IoErr}
    (ht : Took g s s1) (h : handleSignal env (Spec.Sig.signal g) s1 = .err e s') :
    SigCall (.err e) s s' :=
  Or.inr ⟨g, ht.before ((keeps_handleSignal (R := Quiet) env _).err h), Or.inr (Or.inl ⟨e, rfl⟩)⟩

theorem tryReadM_sig {env : REnv} {K : PMap SeqData} (hm : Table env.seqs K) (s : US) :
    match tryReadM env s with
    | .ok o s' => reportedSig (.event o) = none ∧ Quiet s s'
    | .err _ s' => Quiet s s'
    | .stop _ => True := by
  have h := tryReadM_io hm s
  cases ht : tryReadM env s with
  | stop w => trivial
  | err e s1 => rw [ht] at h; dsimp only at h ⊢; subst h; exact Frame.refl (R := Quiet) _
  | ok o s1 =>
    rw [ht] at h
    cases o with
    | none => dsimp only at h ⊢; subst h; exact ⟨rfl, Frame.refl (R := Quiet) _⟩
    | some ev =>
      obtain ⟨b, h1, h2, h3⟩ := h
      refine ⟨?_, ?_⟩
      · rcases denotes_kind h1 with ⟨k, rfl⟩ | ⟨k, rfl⟩ <;> rfl
      · rw [h3]; exact Quiet.same rfl rfl

theorem readEvent_sig {env : REnv} {K : PMap SeqData} (hm : Table env.seqs K) (t : Option Nat)
    (s : US) :
    match readEvent env t s with
    | .ok o s' => SigCall (.event o) s s'
    | .err e s' => SigCall (.err e) s s'
    | .stop _ => True := by
  unfold readEvent
  rw [M.bind_apply]
  have h := tryReadM_sig hm s
  cases ht : tryReadM env s with
  | stop w => trivial
  | err e s1 => rw [ht] at h; exact Or.inl ⟨rfl, h⟩
  | ok o s1 =>
    rw [ht] at h
    cases o with
    | some ev => exact Or.inl h
    | none =>
      dsimp only at h ⊢
      rw [M.bind_apply]
      have h2 := InSig.after h.2 (readIntoBuffer_sig env t s1)
      cases hr : readIntoBuffer env t s1 with
      | stop w => trivial
      | err e s2 => rw [hr] at h2; exact Or.inl ⟨rfl, h2⟩
      | ok a s2 =>
        have hk := readIntoBuffer_io env t s1
        rw [hr] at h2 hk
        cases a with
        | nothing => exact Or.inl ⟨rfl, h2⟩
        | raw b =>
          have h3 := tryReadM_sig hm s2
          dsimp only
          cases ht2 : tryReadM env s2 with
          | stop w => trivial
          | err e s3 => rw [ht2] at h3; exact Or.inl ⟨rfl, Frame.trans (R := Quiet) h2 h3⟩
          | ok o s3 =>
            rw [ht2] at h3
            exact Or.inl ⟨h3.1, Frame.trans (R := Quiet) h2 h3.2⟩
        | event ev =>
          cases ev with
          | signal sg =>
            obtain ⟨g, rfl, h3⟩ := h2
            dsimp only
            cases hh : handleSignal env (Spec.Sig.signal g) s2 with
            | stop w => trivial
            | err e s3 => exact SigCall.handleErr h3 hh
            | ok o s3 => exact SigCall.handle h3 hh
          | _ => exact hk.elim

theorem readRaw_sig (env : REnv) (n : Nat) (t : Option Nat) (s : US) :
    match readRaw env n t s with
    | .ok o s' => SigCall (InRes.ret o) s s'
    | .err e s' => SigCall (.err e) s s'
    | .stop _ => True := by
  unfold readRaw
  rw [M.bind_apply]
  dsimp only [getS]
  by_cases hb : s.inBuf ≠ []
  · rw [if_pos hb]
    exact Or.inl ⟨rfl, Quiet.same rfl rfl⟩
  · rw [if_neg hb, M.bind_apply]
    have h := readInput_sig env n t s
    cases hr : readInput env n t s with
    | stop w => trivial
    | err e s1 => rw [hr] at h; exact Or.inl ⟨rfl, h⟩
    | ok a s1 =>
      have hk := readInput_io env n t s
      rw [hr] at h hk
      cases a with
      | nothing => exact Or.inl ⟨rfl, h⟩
      | raw b => exact Or.inl ⟨rfl, h⟩
      | event ev =>
        cases ev with
        | signal sg =>
          obtain ⟨g, rfl, h3⟩ := h
          dsimp only
          rw [M.bind_apply]
          cases hh : handleSignal env (Spec.Sig.signal g) s1 with
          | stop w => trivial
          | err e s3 => exact SigCall.handleErr h3 hh
          | ok o s3 =>
            have := SigCall.handle h3 hh
            cases o <;> exact this
        | _ => exact hk.elim

/-- Every call accounts for the signals. -/
theorem run_sig {env : REnv} {K : PMap SeqData} (hm : Table env.seqs K) {op : UOp}
    {st st' : List PrepareState} {s s' : US} {r : URet}
    (h : UOp.run env st s op = some (r, st', s')) : SigCall r s s' := by
  have close : ∀ {α : Type} (f : α → URet) (res : Res α),
      (∀ a s', res = .ok a s' → SigCall (f a) s s') →
      (∀ e s', res = .err e s' → SigCall (.err e) s s') → ∀ st0,
      (ret f res).map (fun (r, s) => (r, st0, s)) = some (r, st', s') → SigCall r s s' := by
    intro α f res h1 h2 st0 he
    cases res with
    | ok a s1 => cases he; exact h1 _ _ rfl
    | err e s1 => cases he; exact h2 _ _ rfl
    | stop w => cases he
  have quiet : ∀ {α : Type} (f : α → URet) (m : M α), Keeps Quiet m →
      (∀ a, reportedSig (f a) = none) → ∀ st0,
      (ret f (m s)).map (fun (r, s) => (r, st0, s)) = some (r, st', s') → SigCall r s s' := by
    intro α f m hk hf st0 he
    exact close f (m s) (fun a s1 e => Or.inl ⟨hf a, hk.ok e⟩)
      (fun x s1 e => Or.inl ⟨rfl, hk.err e⟩) st0 he
  cases op with
  | prepare cfg =>
    dsimp only [UOp.run] at h
    have hk := keeps_prepare (R := Quiet) env cfg s
    cases hp : prepare env cfg s with
    | ok p s1 => rw [hp] at h hk; cases h; exact Or.inl ⟨rfl, hk⟩
    | err e s1 => rw [hp] at h hk; cases h; exact Or.inl ⟨rfl, hk⟩
    | stop w => rw [hp] at h; cases h
  | restore =>
    cases st with
    | nil => cases h; exact Or.inl ⟨rfl, Frame.refl (R := Quiet) s⟩
    | cons p st => exact quiet _ _ (keeps_restore env p) (fun _ => rfl) _ h
  | waitEvent t => exact quiet _ _ (keeps_waitEvent env t) (fun _ => rfl) _ h
  | readEvent t =>
    have hf := readEvent_sig hm t s
    refine close _ _ ?_ ?_ _ h
    · intro a s1 e; rw [e] at hf; exact hf
    · intro x s1 e; rw [e] at hf; exact hf
  | readRaw n t =>
    have hf := readRaw_sig env n t s
    refine close _ _ ?_ ?_ _ h
    · intro a s1 e; rw [e] at hf; exact hf
    · intro x s1 e; rw [e] at hf; exact hf
  | write op => exact quiet _ _ (keeps_liftW _) (fun _ => rfl) _ h

/-! ## Delivery in closed form -/

theorem deliverAll_form (l : List Sig) : ∀ s : US, ∃ x, deliverAll s l =
    { s with last := x, seen := s.seen ++ handled s.act l } ∧
    pendingSig (deliverAll s l) = latest (handled s.act l) (pendingSig s) := by
  induction l with
  | nil => intro s; exact ⟨s.last, by simp [deliverAll, handled], rfl⟩
  | cons a l ih =>
    intro s
    have e : deliverAll s (a :: l) = deliverAll (deliver s a) l := rfl
    by_cases ha : s.act.get a = .ours
    · have hd : deliver s a = { s with last := a.num, seen := s.seen ++ [a] } := by
        unfold deliver; rw [if_pos ha]
      have hh : handled s.act (a :: l) = [a] ++ handled s.act l := by
        unfold handled; rw [List.filter_cons, if_pos (by simpa using ha)]; rfl
      obtain ⟨x, h1, h2⟩ := ih { s with last := a.num, seen := s.seen ++ [a] }
      refine ⟨x, ?_, ?_⟩
      · rw [e, hd, h1, hh, List.append_assoc]
      · rw [e, hd, h2, hh, latest_append]
        congr 1
        exact pendingSig_num s a
    · have hd : deliver s a = s := by unfold deliver; rw [if_neg ha]
      have hh : handled s.act (a :: l) = handled s.act l := by
        unfold handled; rw [List.filter_cons, if_neg (by simpa using ha)]
      rw [e, hd, hh]
      exact ih s

theorem latest_sublist (new : List Sig) (old : Option Sig) :
    (latest new old).toList.Sublist (old.toList ++ new) := by
  unfold latest
  cases h : new.getLast? with
  | none => exact List.sublist_append_left _ _
  | some g =>
    refine List.Sublist.trans ?_ (List.sublist_append_right _ _)
    exact List.singleton_sublist.2 (List.mem_of_getLast? h)

theorem SigCall.sublist {r : URet} {s s' : US} (h : SigCall r s s') :
    ∃ new, s'.seen = s.seen ++ new ∧
      ((reportedSig r).toList ++ (pendingSig s').toList.map Sig.signal).Sublist
        (((pendingSig s).toList ++ new).map Sig.signal) := by
  rcases h with ⟨hr, new, h1, h2⟩ | ⟨g, ⟨n1, n2, h1, h2, h3⟩, hr⟩
  · refine ⟨new, h1, ?_⟩
    rw [hr, h2]
    exact (latest_sublist new _).map _
  · refine ⟨n1 ++ n2, by rw [h1, List.append_assoc], ?_⟩
    rw [← List.append_assoc, List.map_append]
    refine List.Sublist.append ?_ ?_
    · have e := (latest_sublist n1 (pendingSig s)).map Sig.signal
      rw [h2] at e
      rcases hr with hr | ⟨e', hr⟩ | ⟨hr, _⟩
      · rw [hr]; exact e
      · rw [hr]; exact List.nil_sublist _
      · rw [hr]; exact List.nil_sublist _
    · rw [h3]
      exact (latest_sublist n2 none).map _

theorem tick_step {s : US} {st : Step} {rest : List Step} (hs : s.sched = st :: rest) :
    tick s = .ok st.res (deliverAll (s.advance st rest) st.before) := by
  unfold tick
  rw [hs]

theorem tick_nil {s : US} (hs : s.sched = []) : tick s = .stop .blocked := by
  unfold tick
  rw [hs]

theorem takeSignal_step {s : US} {st : Step} {rest : List Step} {g : Sig}
    (hs : s.sched = st :: rest) (hg : latest (handled s.act st.before) (pendingSig s) = some g) :
    takeSignal s = .ok (some (Sig.signal g))
      { s.advance st rest with seen := s.seen ++ handled s.act st.before, last := 0 } := by
  unfold takeSignal
  rw [M.bind_apply, tick_step hs]
  dsimp only
  obtain ⟨x, h1, h2⟩ := deliverAll_form st.before (s.advance st rest)
  have h3 : pendingSig (deliverAll (s.advance st rest) st.before) = some g := h2.trans hg
  have e : convSignal (deliverAll (s.advance st rest) st.before).last = some (Sig.signal g) := by
    rw [convSignal_pending, h3]; rfl
  show Res.ok (convSignal (deliverAll (s.advance st rest) st.before).last)
    { deliverAll (s.advance st rest) st.before with last := 0 } = _
  rw [e, h1]

theorem getSignal_step {s : US} {st : Step} {rest : List Step} (hs : s.sched = st :: rest) :
    ∃ x, getSignal s = .ok ((latest (handled s.act st.before) (pendingSig s)).map Sig.signal)
      { s.advance st rest with seen := s.seen ++ handled s.act st.before, last := x } ∧
    pendingSig { s.advance st rest with seen := s.seen ++ handled s.act st.before, last := x } =
      latest (handled s.act st.before) (pendingSig s) := by
  unfold getSignal
  rw [M.bind_apply, tick_step hs]
  dsimp only
  obtain ⟨x, h1, h2⟩ := deliverAll_form st.before (s.advance st rest)
  refine ⟨x, ?_, ?_⟩
  · show Res.ok (convSignal (deliverAll (s.advance st rest) st.before).last)
      (deliverAll (s.advance st rest) st.before) = _
    rw [convSignal_pending, h2, h1]
    rfl
  · rw [h1] at h2
    exact h2

theorem roundSteps_length : ∀ l, l.length ≤ (roundSteps l).length
  | [] => Nat.le_refl 0
  | a :: l => by
    have := roundSteps_length l
    have e : roundSteps (a :: l) = a.1 :: a.2 :: roundSteps l := rfl
    rw [e]
    simp only [List.length_cons]
    omega

theorem handled_append (t : SigTab) (a b : List Sig) :
    handled t (a ++ b) = handled t a ++ handled t b := List.filter_append ..

theorem select_eintr {s : US} {st : Step} {rest : List Step} {d : List Sig} {e : Nat}
    (t : Option Nat) (hs : s.sched = st :: rest) (hr : st.res = .eintr d e) :
    ∃ s' e', sysSelect t s = .ok (.eintr e') s' ∧ s'.sched = rest ∧ s'.act = s.act ∧
      s'.inBuf = s.inBuf ∧ s'.seen = s.seen ++ handled s.act (st.before ++ d) ∧
      pendingSig s' = latest (handled s.act (st.before ++ d)) (pendingSig s) := by
  unfold sysSelect
  rw [M.bind_apply, tick_step hs]
  dsimp only
  rw [hr]
  dsimp only
  rw [M.bind_apply]
  dsimp only [modifyS]
  obtain ⟨x, h1, h2⟩ := deliverAll_form st.before (s.advance st rest)
  rw [h1] at h2 ⊢
  have tail : ∀ e' s', s' = deliverAll { s.advance st rest with
      last := x, seen := s.seen ++ handled s.act st.before,
      waited := s.waited + e' } d →
      s'.sched = rest ∧ s'.act = s.act ∧ s'.inBuf = s.inBuf ∧
      s'.seen = s.seen ++ handled s.act (st.before ++ d) ∧
      pendingSig s' = latest (handled s.act (st.before ++ d)) (pendingSig s) := by
    intro e' s' hs'
    obtain ⟨y, h3, h4⟩ := deliverAll_form d { s.advance st rest with
      last := x, seen := s.seen ++ handled s.act st.before, waited := s.waited + e' }
    rw [← hs'] at h3 h4
    refine ⟨by rw [h3], by rw [h3], by rw [h3], by rw [h3, handled_append, List.append_assoc], ?_⟩
    rw [h4, handled_append, latest_append]
    congr 1
  cases t with
  | none => exact ⟨_, e, rfl, tail e _ rfl⟩
  | some t => exact ⟨_, min e t, rfl, tail (min e t) _ rfl⟩

theorem waitLoop_wakes (rounds : List (Step × Step)) : ∀ (n : Nat) (t : Option Nat) (s : US)
    (st1 st2 : Step) (rest : List Step) (d : List Sig) (e : Nat),
    rounds.length < n → (∀ r ∈ rounds, QuietRound s.act r) → pendingSig s = none →
    s.sched = roundSteps rounds ++ st1 :: st2 :: rest → st1.res = .eintr d e →
    handled s.act (st1.before ++ d ++ st2.before) ≠ [] →
    ∃ s', waitLoop n t s = .ok true s' ∧ s'.sched = rest := by
  induction rounds with
  | nil =>
    intro n t s st1 st2 rest d e hn _ hp hs hr hd
    obtain ⟨n, rfl⟩ : ∃ m, n = m + 1 := ⟨n - 1, by simp at hn; omega⟩
    obtain ⟨s1, e1, h1, h2, h3, _, h4, h5⟩ := select_eintr t (show s.sched = st1 :: st2 :: rest from hs) hr
    obtain ⟨x, h6, h7⟩ := getSignal_step h2
    unfold waitLoop
    rw [M.bind_apply, h1]
    dsimp only
    rw [M.bind_apply, h6]
    dsimp only
    have : ∃ g, latest (handled s1.act st2.before) (pendingSig s1) = some g := by
      rw [h3, h5, ← latest_append, ← handled_append]
      unfold latest
      cases hl : (handled s.act (st1.before ++ d ++ st2.before)).getLast? with
      | some g => exact ⟨g, rfl⟩
      | none => exact absurd (List.getLast?_eq_none_iff.1 hl) hd
    obtain ⟨g, hg⟩ := this
    rw [hg]
    exact ⟨_, rfl, rfl⟩
  | cons r rounds ih =>
    intro n t s st1 st2 rest d e hn hq hp hs hr hd
    obtain ⟨n, rfl⟩ : ∃ m, n = m + 1 := ⟨n - 1, by simp at hn; omega⟩
    obtain ⟨q1, q2, d', e', q3, q4⟩ := hq r (by simp)
    obtain ⟨s1, e1, h1, h2, h3, _, h4, h5⟩ := select_eintr t
      (show s.sched = r.1 :: (r.2 :: (roundSteps rounds ++ st1 :: st2 :: rest)) from hs) q3
    rw [handled_append, q1, q4] at h5
    obtain ⟨x, h6, h7⟩ := getSignal_step h2
    rw [h3, q2, latest_nil] at h6 h7
    have hp1 : pendingSig s1 = none := h5.trans hp
    rw [hp1] at h6
    unfold waitLoop
    rw [M.bind_apply, h1]
    dsimp only
    rw [M.bind_apply, h6]
    dsimp only [Option.map_none]
    refine ih n _ _ st1 st2 rest d e (by simpa using hn) ?_ (h7.trans hp1) rfl hr ?_
    · intro r' hr'
      exact h3 ▸ hq r' (by simp [hr'])
    · exact h3 ▸ hd

theorem select_done {s s' : US} {t : Option Nat} {n : Nat} (h : sysSelect t s = .ok (.done n) s') :
    ∃ st, s.sched = st :: s'.sched ∧ st.res = .ok n ∧ s'.act = s.act ∧
      s'.seen = s.seen ++ handled s.act st.before ∧
      pendingSig s' = latest (handled s.act st.before) (pendingSig s) := by
  unfold sysSelect at h
  rw [M.bind_apply] at h
  cases hs : s.sched with
  | nil => rw [tick_nil hs] at h; cases h
  | cons st rest =>
    rw [tick_step hs] at h
    dsimp only at h
    obtain ⟨x, h1, h2⟩ := deliverAll_form st.before (s.advance st rest)
    rw [h1] at h h2
    cases hr : st.res with
    | fail => rw [hr] at h; cases h
    | eintr d e => rw [hr] at h; cases h
    | ok k =>
      rw [hr] at h
      cases k with
      | zero =>
        cases t with
        | none => cases h
        | some t => cases h; exact ⟨st, rfl, hr, rfl, rfl, h2⟩
      | succ k => cases h; exact ⟨st, rfl, hr, rfl, rfl, h2⟩

theorem waitLoop_false (n : Nat) : ∀ (t : Option Nat) (s s' : US), waitLoop n t s = .ok false s' →
    pendingSig s = none → ∃ pre st, s.sched = pre ++ st :: s'.sched ∧ st.res = .ok 0 ∧
      s'.seen = s.seen ++ handled s.act st.before := by
  induction n with
  | zero => intro t s s' h; cases h
  | succ n ih =>
    intro t s s' h hp
    unfold waitLoop at h
    obtain ⟨o, s1, h1, h2⟩ := M.bind_ok h
    cases o with
    | done k =>
      obtain ⟨st, e1, e2, _, e3, _⟩ := select_done h1
      cases k with
      | zero => cases h2; exact ⟨[], st, e1, e2, e3⟩
      | succ k => cases h2
    | eintr e =>
      dsimp only at h2
      have hsel : ∃ st rest d e', s.sched = st :: rest ∧ st.res = .eintr d e' := by
        unfold sysSelect at h1
        rw [M.bind_apply] at h1
        cases hs : s.sched with
        | nil => rw [tick_nil hs] at h1; cases h1
        | cons st rest =>
          rw [tick_step hs] at h1
          dsimp only at h1
          cases hr : st.res with
          | fail => rw [hr] at h1; cases h1
          | eintr d e => exact ⟨st, rest, d, e, rfl, hr⟩
          | ok k =>
            rw [hr] at h1
            cases k with
            | zero =>
              cases t with
              | none => cases h1
              | some t => cases h1
            | succ k => cases h1
      obtain ⟨st, rest, d, e', hs, hr⟩ := hsel
      obtain ⟨s1', e1, k1, k2, k3, _, k4, k5⟩ := select_eintr t hs hr
      rw [k1] at h1
      cases h1
      obtain ⟨o, s2, g1, g2⟩ := M.bind_ok h2
      cases o with
      | some sg => cases g2
      | none =>
        dsimp only at g2
        cases hs1 : s1.sched with
        | nil => unfold getSignal at g1; rw [M.bind_apply, tick_nil hs1] at g1; cases g1
        | cons st2 rest2 =>
          obtain ⟨x, g3, g4⟩ := getSignal_step hs1
          rw [g3] at g1
          simp only [Res.ok.injEq, Option.map_eq_none_iff] at g1
          obtain ⟨g5, g6⟩ := g1
          subst g6
          have hl : ∀ (l : List Sig) (o : Option Sig), latest l o = none → l = [] := by
            intro l o h
            unfold latest at h
            cases hl : l.getLast? with
            | none => exact List.getLast?_eq_none_iff.1 hl
            | some g => rw [hl] at h; cases h
          have z1 := hl _ _ g5
          rw [z1, latest_nil, k5] at g5
          have z2 := hl _ _ g5
          obtain ⟨pre, stz, q1, q2, q3⟩ := ih _ _ _ g2 (by
            rw [g4, z1, latest_nil, k5]; exact g5)
          refine ⟨st :: st2 :: pre, stz, ?_, q2, ?_⟩
          · rw [hs, ← k2, hs1]
            exact congrArg (fun l => st :: st2 :: l) q1
          · rw [q3]
            dsimp only
            rw [z1, k4, z2, k3]
            simp

/-! ## Time spent waiting -/

theorem deliverAll_waited (l : List Sig) (s : US) : (deliverAll s l).waited = s.waited := by
  obtain ⟨x, h, _⟩ := deliverAll_form l s
  rw [h]

theorem getSignal_time {s s' : US} {o : Option Signal} (h : getSignal s = .ok o s') :
    s'.waited = s.waited := by
  unfold getSignal at h
  rw [M.bind_apply] at h
  cases hs : s.sched with
  | nil => rw [tick_nil hs] at h; cases h
  | cons st rest =>
    rw [tick_step hs] at h
    cases h
    exact deliverAll_waited _ _

theorem select_time {t : Nat} {s s' : US} {o : SysOut Nat} (h : sysSelect (some t) s = .ok o s') :
    match o with
    | .done 0 => s'.waited = s.waited + t
    | .done _ => s'.waited = s.waited
    | .eintr e => e ≤ t ∧ s'.waited = s.waited + e := by
  unfold sysSelect at h
  rw [M.bind_apply] at h
  cases hs : s.sched with
  | nil => rw [tick_nil hs] at h; cases h
  | cons st rest =>
    rw [tick_step hs] at h
    dsimp only at h
    have hd := deliverAll_waited st.before (s.advance st rest)
    cases hr : st.res with
    | fail => rw [hr] at h; cases h
    | ok n =>
      rw [hr] at h
      cases n with
      | zero => cases h; exact congrArg (· + t) hd
      | succ n => cases h; exact hd
    | eintr d e =>
      rw [hr] at h
      cases h
      refine ⟨Nat.min_le_right _ _, ?_⟩
      rw [deliverAll_waited]
      exact congrArg (· + min e t) hd

theorem waitLoop_time (n : Nat) : ∀ (t : Nat) (s s' : US) (b : Bool),
    waitLoop n (some t) s = .ok b s' →
    s.waited ≤ s'.waited ∧ s'.waited ≤ s.waited + t ∧ (b = false → s'.waited = s.waited + t) := by
  induction n with
  | zero => intro t s s' b h; cases h
  | succ n ih =>
    intro t s s' b h
    unfold waitLoop at h
    obtain ⟨o, s1, h1, h2⟩ := M.bind_ok h
    have ht := select_time h1
    cases o with
    | done k =>
      cases h2
      cases k with
      | zero =>
        have ht : s'.waited = s.waited + t := ht
        exact ⟨by omega, by omega, fun _ => ht⟩
      | succ k =>
        have ht : s'.waited = s.waited := ht
        exact ⟨by omega, by omega, by simp⟩
    | eintr e =>
      dsimp only at ht h2
      obtain ⟨o, s2, g1, g2⟩ := M.bind_ok h2
      have hg := getSignal_time g1
      cases o with
      | some sg => cases g2; exact ⟨by omega, by omega, by simp⟩
      | none =>
        obtain ⟨k1, k2, k3⟩ := ih (t - e) s2 s' b g2
        exact ⟨by omega, by omega, fun hb => by have := k3 hb; omega⟩

theorem waitEvent_time {env : REnv} {t : Nat} {s s' : US} {b : Bool}
    (h : waitEvent env (some t) s = .ok b s') :
    s.waited ≤ s'.waited ∧ s'.waited ≤ s.waited + t ∧ (b = false → s'.waited = s.waited + t) := by
  unfold waitEvent at h
  obtain ⟨o, s1, h1, h2⟩ := M.bind_ok h
  have hg := getSignal_time h1
  cases o with
  | some sg => cases h2; exact ⟨by omega, by omega, by simp⟩
  | none =>
    dsimp only at h2
    obtain ⟨_, s2, k1, k2⟩ := M.bind_ok h2
    cases k1
    obtain ⟨o, s3, k3, k4⟩ := M.bind_ok k2
    have hk : s3 = s1 := by
      unfold peekM at k3
      cases hp : peekEvent env.seqs s1.inBuf with
      | none => rw [hp] at k3; cases k3
      | some r => rw [hp] at k3; cases r <;> cases k3 <;> rfl
    subst hk
    cases o with
    | some ev => cases k4; exact ⟨by omega, by omega, by simp⟩
    | none =>
      obtain ⟨q1, q2, q3⟩ := waitLoop_time _ _ _ _ _ k4
      exact ⟨by omega, by omega, fun hb => by have := q3 hb; omega⟩

end Mortal
