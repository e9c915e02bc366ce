import Verif.Lemmas.SizeKnown

/-! # Lemmas about screens that have missed a change of size -/

namespace Mortal
open Spec

/-- What a read of a screen does to its data: the result of the read decides. -/
theorem screenReadEvent_data {env : REnv} {t : Option Nat} {d d' : SData} {s s' : US} {r : URet}
    (e : rret .event d (screenReadEvent env t d s) = some (r, d', s')) :
    (∃ x, readEvent env t s = .err x s' ∧ r = .err x ∧ d' = d) ∨
    ∃ o, readEvent env t s = .ok o s' ∧ r = .event o ∧
      ((∃ z, o = some (.resize z)) ∨ ((∀ z, o ≠ some (.resize z)) ∧ d' = d)) := by
  cases h : screenReadEvent env t d s with
  | stop w => rw [h] at e; cases e
  | err i s1 =>
    rw [h] at e
    cases e
    rcases M.bind_err h with h1 | ⟨o, s2, h1, h2⟩
    · exact Or.inl ⟨i, h1, rfl, rfl⟩
    · exfalso
      rcases o with _ | ev
      · cases h2
      cases ev with
      | resize z =>
        dsimp only at h2
        cases hd : d.updateSize z with
        | none => rw [hd] at h2; cases h2
        | some d2 => rw [hd] at h2; cases h2
      | _ => cases h2
  | ok a s1 =>
    rw [h] at e
    obtain ⟨o1, d1⟩ := a
    cases e
    obtain ⟨o, s2, h1, h2⟩ := M.bind_ok h
    refine Or.inr ?_
    rcases o with _ | ev
    · cases h2; exact ⟨none, h1, rfl, Or.inr ⟨(fun z h => by cases h), rfl⟩⟩
    cases ev with
    | resize z =>
      dsimp only at h2
      cases hd : d.updateSize z with
      | none => rw [hd] at h2; cases h2
      | some d2 => rw [hd] at h2; cases h2; exact ⟨_, h1, rfl, Or.inl ⟨z, rfl⟩⟩
    | _ => cases h2; exact ⟨_, h1, rfl, Or.inr ⟨(fun z h => by cases h), rfl⟩⟩

theorem screenReadRaw_data {env : REnv} {n : Nat} {t : Option Nat} {d d' : SData} {s s' : US} {r : URet}
    (e : rret InRes.ret d (screenReadRaw env n t d s) = some (r, d', s')) :
    (∃ x, readRaw env n t s = .err x s' ∧ r = .err x ∧ d' = d) ∨
    ∃ o, readRaw env n t s = .ok o s' ∧ r = InRes.ret o ∧
      ((∃ z, o = .event (.resize z)) ∨ ((∀ z, o ≠ .event (.resize z)) ∧ d' = d)) := by
  cases h : screenReadRaw env n t d s with
  | stop w => rw [h] at e; cases e
  | err i s1 =>
    rw [h] at e
    cases e
    rcases M.bind_err h with h1 | ⟨o, s2, h1, h2⟩
    · exact Or.inl ⟨i, h1, rfl, rfl⟩
    · exfalso
      rcases o with _ | b | ev
      · cases h2
      · cases h2
      cases ev with
      | resize z =>
        dsimp only at h2
        cases hd : d.updateSize z with
        | none => rw [hd] at h2; cases h2
        | some d2 => rw [hd] at h2; cases h2
      | _ => cases h2
  | ok a s1 =>
    rw [h] at e
    obtain ⟨o1, d1⟩ := a
    cases e
    obtain ⟨o, s2, h1, h2⟩ := M.bind_ok h
    refine Or.inr ?_
    rcases o with _ | b | ev
    · cases h2; exact ⟨_, h1, rfl, Or.inr ⟨(fun z h => by cases h), rfl⟩⟩
    · cases h2; exact ⟨_, h1, rfl, Or.inr ⟨(fun z h => by cases h), rfl⟩⟩
    cases ev with
    | resize z =>
      dsimp only at h2
      cases hd : d.updateSize z with
      | none => rw [hd] at h2; cases h2
      | some d2 => rw [hd] at h2; cases h2; exact ⟨_, h1, rfl, Or.inl ⟨z, rfl⟩⟩
    | _ => cases h2; exact ⟨_, h1, rfl, Or.inr ⟨(fun z h => by cases h), rfl⟩⟩

/-! ## The invariant holds whatever happens -/

theorem alert_wret {o : Outcome Scr} {s s' : US} {d : SData} {r : URet} (hs : Alert k0 s)
    (e : wret s o = some (r, d, s')) : Alert k0 s' := by
  cases o with
  | ok x => cases e; exact hs.like rfl rfl rfl rfl
  | err i x => cases e; exact hs.like rfl rfl rfl rfl
  | stop w => cases e

theorem alert_call {u : UEnv} {env : REnv} {op : ScrOp} {d d' : SData} {s s' : US} {r : URet}
    (hs : Alert k0 s) (e : op.run u env d s = some (r, d', s')) : Alert k0 s' := by
  have hh : Heeds k0 s.size s := ⟨hs, Or.inl rfl⟩
  cases op with
  | draw o =>
    simp only [ScrOp.run, Option.map_eq_some_iff] at e
    obtain ⟨b, e1, e2⟩ := e
    cases e2
    exact hs
  | refresh => exact alert_wret hs e
  | setCursorMode m =>
    simp only [ScrOp.run, Option.map_eq_some_iff] at e
    obtain ⟨⟨r1, s1⟩, e1, e2⟩ := e
    cases e2
    exact (keeps_ret (keeps_withWriter (R := HeedsOn k0 s.size) env (keeps_liftW _)) e1 hh).1
  | guard ops => exact alert_wret hs e
  | waitEvent t =>
    simp only [ScrOp.run, Option.map_eq_some_iff] at e
    obtain ⟨⟨r1, s1⟩, e1, e2⟩ := e
    cases e2
    exact (keeps_ret (size_waitEvent env t) e1 hh).1
  | readEvent t =>
    rcases screenReadEvent_data e with ⟨x, h, -⟩ | ⟨o, h, -⟩
    · exact ((size_readEvent env t hh).2 x h).1
    · exact ((size_readEvent env t hh).1 o h).1
  | readRaw n t =>
    rcases screenReadRaw_data e with ⟨x, h, -⟩ | ⟨o, h, -⟩
    · exact ((size_readRaw env n t hh).2 x h).1
    · exact ((size_readRaw env n t hh).1 o h).1

theorem alert_run {u : UEnv} {env : REnv} : ∀ (es : List SizeEv) {d d' : SData} {s s' : US}
    {rs : List (ScrOp × URet)}, Alert k0 s → runSize u env es d s = some (rs, d', s') → Alert k0 s'
  | [], _, _, _, _, _, hs, e => by cases e; exact hs
  | .window z :: es, d, d', s, s', rs, hs, e => by
    refine alert_run es ?_ e
    have ha : Alert k0 { s with size := z } := hs.like rfl rfl rfl rfl
    exact ha.deliver _
  | .call op :: es, d, d', s, s', rs, hs, e => by
    simp only [runSize, Option.bind_eq_bind, Option.bind_eq_some_iff] at e
    obtain ⟨⟨r, d1, s1⟩, e1, ⟨rs1, d2, s2⟩, e2, e3⟩ := e
    cases e3
    exact alert_run es (alert_call hs e1) e2

/-- The invariant holds when a screen has been opened. -/
theorem alert_new {env : REnv} {cfg : PrepareConfig} {scr : ScreenU} {s0 s1 : US} (h0 : s0.last = 0)
    (hw : WinchSent s0) (h1 : screenNew env cfg s0 = .ok scr s1) (hours : s1.act.winch = .ours) :
    Alert 0 s1 := by
  obtain ⟨r1, r2⟩ := record_new h1
  refine ⟨r1 fun g hg => ?_, hours, fun st hst => hw st (r2 st hst), Nat.zero_le _⟩
  rw [h0] at hg
  cases g <;> cases hg

/-! ## Without a new SIGWINCH -/

/-- More signals were seen; if none of them was SIGWINCH, SIGWINCH has not become pending. -/
def StillOn (s s' : US) : Prop :=
  ∃ x, s'.seen = s.seen ++ x ∧ (.winch ∉ x → s.last ≠ 28 → s'.last ≠ 28)

theorem StillOn.same {s s' : US} (h1 : s'.last = s.last) (h2 : s'.seen = s.seen) : StillOn s s' :=
  ⟨[], by simp [h2], fun _ h => h1 ▸ h⟩

theorem StillOn.trans {s s1 s2 : US} (h1 : StillOn s s1) (h2 : StillOn s1 s2) : StillOn s s2 := by
  obtain ⟨x, e1, k1⟩ := h1
  obtain ⟨y, e2, k2⟩ := h2
  refine ⟨x ++ y, by rw [e2, e1, List.append_assoc], fun h hl => ?_⟩
  rw [List.mem_append, not_or] at h
  exact k2 h.2 (k1 h.1 hl)

theorem stillOn_deliver (s : US) (g : Sig) : StillOn s (deliver s g) := by
  unfold deliver
  split
  · refine ⟨[g], rfl, fun h _ e => h ?_⟩
    cases sig_num_inj (show g.num = Sig.winch.num from e)
    exact List.mem_singleton.2 rfl
  · exact StillOn.same rfl rfl

instance : InOnly StillOn where
  refl _ := StillOn.same rfl rfl
  trans := StillOn.trans
  dl := stillOn_deliver
  sc _ _ _ _ := StillOn.same rfl rfl
  wt _ _ := StillOn.same rfl rfl
  updW _ _ := StillOn.same rfl rfl
  tio _ _ := StillOn.same rfl rfl
  act _ _ := StillOn.same rfl rfl
  cfg _ _ _ := StillOn.same rfl rfl

instance : ReadFree StillOn where
  clr s := ⟨[], by simp, fun _ _ e => by cases e⟩
  inp _ _ _ _ := StillOn.same rfl rfl

/-- SIGWINCH was pending or has been seen since. -/
def WinchSeen (s s' : US) : Prop := ∃ x, s'.seen = s.seen ++ x ∧ (.winch ∈ x ∨ s.last = 28)

theorem WinchSeen.after {s s1 s2 : US} (h1 : StillOn s s1) (h2 : WinchSeen s1 s2) : WinchSeen s s2 := by
  obtain ⟨x, e1, k1⟩ := h1
  obtain ⟨y, e2, k2⟩ := h2
  refine ⟨x ++ y, by rw [e2, e1, List.append_assoc], ?_⟩
  by_cases hx : .winch ∈ x
  · exact Or.inl (List.mem_append_left _ hx)
  · by_cases hl : s.last = 28
    · exact Or.inr hl
    · rcases k2 with k2 | k2
      · exact Or.inl (List.mem_append_right _ k2)
      · exact (k1 hx hl k2).elim

theorem WinchSeen.before {s s1 s2 : US} (h1 : WinchSeen s s1) (h2 : StillOn s1 s2) : WinchSeen s s2 := by
  obtain ⟨x, e1, k1⟩ := h1
  obtain ⟨y, e2, -⟩ := h2
  exact ⟨x ++ y, by rw [e2, e1, List.append_assoc], k1.imp (List.mem_append_left _) id⟩

theorem convSignal_resize {n : Nat} (h : convSignal n = some .resize) : n = 28 := by
  unfold convSignal at h
  split at h
  · cases h
  split at h
  · cases h
  split at h
  · cases h
  split at h
  · cases h
  split at h
  · assumption
  · cases h

theorem takeSignal_winch {s s' : US} (h : takeSignal s = .ok (some .resize) s') : WinchSeen s s' := by
  obtain ⟨r, s1, h1, h2⟩ := M.bind_ok h
  have k := (keeps_tick (R := StillOn)).ok h1
  obtain ⟨_, s2, h3, h4⟩ := M.bind_ok h2
  cases h3
  obtain ⟨_, s3, h5, h6⟩ := M.bind_ok h4
  cases h5
  have h7 : convSignal s1.last = some .resize ∧ ({ s1 with last := 0 } : US) = s' := by
    injection h6 with a b
    exact ⟨a, b⟩
  obtain ⟨h8, rfl⟩ := h7
  exact WinchSeen.after k ⟨[], by simp, Or.inr (convSignal_resize h8)⟩

theorem readLoop_winch {len : Nat} : ∀ (n : Nat) {s s' : US},
    readLoop len n s = .ok (.event (.signal .resize)) s' → WinchSeen s s'
  | 0, _, _, h => by cases h
  | n + 1, s, s', h => by
    obtain ⟨o, s1, h1, h2⟩ := M.bind_ok h
    have k1 := (keeps_sysRead (R := StillOn) len).ok h1
    cases o with
    | done b => cases h2
    | eintr e =>
      obtain ⟨o, s2, h3, h4⟩ := M.bind_ok h2
      cases o with
      | some sig => cases h4; exact WinchSeen.after k1 (takeSignal_winch h3)
      | none =>
        exact WinchSeen.after (k1.trans ((keeps_takeSignal (R := StillOn)).ok h3)) (readLoop_winch n h4)

theorem readInput_winch {env : REnv} {len : Nat} {t : Option Nat} {s s' : US}
    (h : readInput env len t s = .ok (.event (.signal .resize)) s') : WinchSeen s s' := by
  obtain ⟨o, s1, h1, h2⟩ := M.bind_ok h
  cases o with
  | some sig => cases h2; exact takeSignal_winch h1
  | none =>
    have k1 := (keeps_takeSignal (R := StillOn)).ok h1
    obtain ⟨b, s2, h3, h4⟩ := M.bind_ok h2
    have k2 := (keeps_waitEvent (R := StillOn) env t).ok h3
    cases b with
    | false => cases h4
    | true =>
      rw [if_pos rfl] at h4
      obtain ⟨o, s3, h5, h6⟩ := M.bind_ok h4
      cases o with
      | some sig => cases h6; exact WinchSeen.after (k1.trans k2) (takeSignal_winch h5)
      | none =>
        exact WinchSeen.after ((k1.trans k2).trans ((keeps_takeSignal (R := StillOn)).ok h5))
          (readLoop_winch _ h6)

theorem handle_only_resize {env : REnv} {sig : Signal} {s s' : US} {z : Size}
    (h : handleSignal env sig s = .ok (some (.resize z)) s') : sig = .resize := by
  have rep : ∀ (sg : Signal) (s s' : US), (do
      if (← getS).report.contains sg then pure (some (Event.signal sg)) else pure none : M _) s ≠
      .ok (some (.resize z)) s' := by
    intro sg s s' h
    rw [M.bind_apply] at h
    dsimp only [getS] at h
    split at h <;> cases h
  cases sig with
  | resize => rfl
  | interrupt => exact (rep _ _ _ h).elim
  | suspend => exact (rep _ _ _ h).elim
  | quit => exact (rep _ _ _ h).elim
  | «break» => exact (rep _ _ _ h).elim
  | «continue» =>
    obtain ⟨_, s1, _, h⟩ := M.bind_ok h
    exact (rep _ _ _ h).elim

theorem readEvent_winch {env : REnv} {t : Option Nat} {s s' : US} {z : Size}
    (h : readEvent env t s = .ok (some (.resize z)) s') : WinchSeen s s' := by
  obtain ⟨o, s1, h1, h⟩ := M.bind_ok h
  have k1 := (keeps_tryReadM (R := StillOn) env).ok h1
  cases o with
  | some ev => cases h; exact (tryReadM_no_resize h1).elim
  | none =>
    refine WinchSeen.after k1 ?_
    obtain ⟨r, s2, h2, h⟩ := M.bind_ok h
    cases r with
    | nothing => cases h
    | raw b => exact (tryReadM_no_resize h).elim
    | event ev =>
      have h2 : (match readInput env (env.spare s1.inBuf.length) t { s1 with inBuf := [] } with
        | .ok (.raw b) s' => .ok (.raw b) { s' with inBuf := s1.inBuf ++ b }
        | .ok r s' => .ok r { s' with inBuf := s1.inBuf }
        | .err e s' => .err e { s' with inBuf := s1.inBuf }
        | .stop w => .stop w : Res InRes) = .ok (.event ev) s2 := h2
      cases hr : readInput env (env.spare s1.inBuf.length) t { s1 with inBuf := [] } with
      | err e x => rw [hr] at h2; cases h2
      | stop w => rw [hr] at h2; cases h2
      | ok r x =>
        rw [hr] at h2
        cases r with
        | raw b => cases h2
        | nothing => cases h2
        | event e =>
          cases h2
          obtain ⟨sig, rfl⟩ := readInput_event hr
          have h : handleSignal env sig _ = _ := h
          cases handle_only_resize h
          obtain ⟨y, a, b⟩ := readInput_winch hr
          have : WinchSeen s1 { x with inBuf := s1.inBuf } := ⟨y, a, b⟩
          exact this.before ((keeps_handleSignal (R := StillOn) env _).ok h)

theorem readRaw_winch {env : REnv} {n : Nat} {t : Option Nat} {s s' : US} {z : Size}
    (h : readRaw env n t s = .ok (.event (.resize z)) s') : WinchSeen s s' := by
  unfold readRaw at h
  rw [M.bind_apply] at h
  dsimp only [getS] at h
  split at h
  · cases h
  · obtain ⟨r, s1, h1, h⟩ := M.bind_ok h
    cases r with
    | nothing => cases h
    | raw b => cases h
    | event ev =>
      obtain ⟨sig, rfl⟩ := readInput_event h1
      obtain ⟨o, s2, h2, h⟩ := M.bind_ok h
      cases o with
      | none => cases h
      | some ev =>
        cases h
        cases handle_only_resize h2
        exact (readInput_winch h1).before ((keeps_handleSignal (R := StillOn) env _).ok h2)

/-- What a call does: without a new SIGWINCH the size stays and no change is reported. -/
def Ignorant (d d' : SData) (s s' : US) (r : URet) : Prop :=
  StillOn s s' ∧ (WinchSeen s s' ∨ (d'.buf.size = d.buf.size ∧ ∀ z, r ≠ .event (some (.resize z))))

theorem ignorant_wret {z : Size} {o : Outcome Scr} (ho : OfSize z o) {s s' : US} {d d' : SData} {r : URet}
    (hz : d.buf.size = z) (e : wret s o = some (r, d', s')) : Ignorant d d' s s' r := by
  cases o with
  | ok x =>
    cases e
    exact ⟨StillOn.same rfl rfl, Or.inr ⟨(ho x rfl).trans hz.symm, fun z h => by cases h⟩⟩
  | err i x =>
    cases e
    exact ⟨StillOn.same rfl rfl, Or.inr ⟨(ho x rfl).trans hz.symm, fun z h => by cases h⟩⟩
  | stop w => cases e

theorem ret_no_event {α : Type} {f : α → URet} (hf : ∀ a ev, f a ≠ .event ev) {x : Res α} {s : US} {r : URet}
    (e : ret f x = some (r, s)) (ev : Option Event) : r ≠ .event ev := by
  cases x with
  | ok a s1 => cases e; exact hf a ev
  | err i s1 => cases e; exact fun h => by cases h
  | stop w => cases e

theorem ignorant_call {u : UEnv} (hu : SpaceOk u) {env : REnv} {op : ScrOp} {d d' : SData} {s s' : US}
    {r : URet} (hp : (SizeEv.call op).Public) (e : op.run u env d s = some (r, d', s')) :
    Ignorant d d' s s' r := by
  cases op with
  | draw o =>
    simp only [ScrOp.run, Option.map_eq_some_iff] at e
    obtain ⟨b, e1, e2⟩ := e
    cases e2
    exact ⟨StillOn.same rfl rfl, Or.inr ⟨(op_effect hu hp e1).size, fun z h => by cases h⟩⟩
  | refresh => exact ignorant_wret (ofSize_refreshCall _) rfl e
  | setCursorMode m =>
    simp only [ScrOp.run, Option.map_eq_some_iff] at e
    obtain ⟨⟨r1, s1⟩, e1, e2⟩ := e
    cases e2
    exact ⟨keeps_ret (keeps_withWriter (R := StillOn) env (keeps_liftW _)) e1,
      Or.inr ⟨rfl, fun z => ret_no_event (fun _ _ h => by cases h) e1 _⟩⟩
  | guard ops => exact ignorant_wret (ofSize_session hu ops _ hp) rfl e
  | waitEvent t =>
    simp only [ScrOp.run, Option.map_eq_some_iff] at e
    obtain ⟨⟨r1, s1⟩, e1, e2⟩ := e
    cases e2
    exact ⟨keeps_ret (keeps_waitEvent (R := StillOn) env t) e1,
      Or.inr ⟨rfl, fun z => ret_no_event (fun _ _ h => by cases h) e1 _⟩⟩
  | readEvent t =>
    have k := keeps_readEvent (R := StillOn) env t (keeps_handleSignal env)
    rcases screenReadEvent_data e with ⟨x, h, rfl, rfl⟩ | ⟨o, h, rfl, ⟨z, rfl⟩ | ⟨ho, rfl⟩⟩
    · exact ⟨k.err h, Or.inr ⟨rfl, fun z h => by cases h⟩⟩
    · exact ⟨k.ok h, Or.inl (readEvent_winch h)⟩
    · exact ⟨k.ok h, Or.inr ⟨rfl, fun z h => by cases h; exact ho z rfl⟩⟩
  | readRaw n t =>
    have k := keeps_readRaw (R := StillOn) env n t (keeps_handleSignal env)
    rcases screenReadRaw_data e with ⟨x, h, rfl, rfl⟩ | ⟨o, h, rfl, ⟨z, rfl⟩ | ⟨ho, rfl⟩⟩
    · exact ⟨k.err h, Or.inr ⟨rfl, fun z h => by cases h⟩⟩
    · exact ⟨k.ok h, Or.inl (readRaw_winch h)⟩
    · refine ⟨k.ok h, Or.inr ⟨rfl, fun z hz => ?_⟩⟩
      cases o with
      | nothing => cases hz
      | raw b => cases hz
      | event ev => cases hz; exact ho z rfl

theorem ignorant_run {u : UEnv} (hu : SpaceOk u) {env : REnv} : ∀ (es : List SizeEv) {d d' : SData} {s s' : US}
    {rs : List (ScrOp × URet)}, (∀ ev ∈ es, ev.Public) → runSize u env es d s = some (rs, d', s') →
    StillOn s s' ∧ (WinchSeen s s' ∨ (d'.buf.size = d.buf.size ∧
      ∀ x ∈ rs, ∀ z, x.2 ≠ .event (some (.resize z))))
  | [], _, _, _, _, _, _, e => by
    cases e
    exact ⟨StillOn.same rfl rfl, Or.inr ⟨rfl, fun x hx => by cases hx⟩⟩
  | .window z :: es, d, d', s, s', rs, hp, e => by
    have h1 : StillOn s (deliver { s with size := z } .winch) :=
      StillOn.trans (StillOn.same rfl rfl) (stillOn_deliver _ _)
    obtain ⟨a, b⟩ := ignorant_run hu es (fun ev he => hp ev (List.mem_cons_of_mem _ he)) e
    exact ⟨h1.trans a, b.imp (WinchSeen.after h1) id⟩
  | .call op :: es, d, d', s, s', rs, hp, e => by
    simp only [runSize, Option.bind_eq_bind, Option.bind_eq_some_iff] at e
    obtain ⟨⟨r, d1, s1⟩, e1, ⟨rs1, d2, s2⟩, e2, e3⟩ := e
    cases e3
    obtain ⟨a1, b1⟩ := ignorant_call hu (hp _ List.mem_cons_self) e1
    obtain ⟨a, b⟩ := ignorant_run hu es (fun ev he => hp ev (List.mem_cons_of_mem _ he)) e2
    refine ⟨a1.trans a, ?_⟩
    rcases b1 with b1 | ⟨b1, b2⟩
    · exact Or.inl (b1.before a)
    rcases b with b | ⟨b3, b4⟩
    · exact Or.inl (WinchSeen.after a1 b)
    refine Or.inr ⟨b3.trans b1, fun x hx => ?_⟩
    rcases List.mem_cons.1 hx with rfl | hx
    · exact b2
    · exact b4 x hx

end Mortal
