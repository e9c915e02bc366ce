import Verif.Spec.Typed
import Verif.Props.WinLive
import Verif.Props.WinUser
import Verif.Props.ScreenGuard
import Verif.Lemmas.WinLiveCheck

/-! # Histories on a Windows console as paths -/

namespace Mortal
open Spec

variable {u : UEnv} {t : WTerm}

/-- Drawing calls one after another. -/
theorem draws_path : ∀ (ops : List BufOp) (x : WSess) (b : Buf) (f : Prop),
    runOps u ops x.s.buf = some b →
    LivePath u t (ops.map LiveStep.draw) x f { x with s := { x.s with buf := b } } f
  | [], x, b, f, h => by cases h; exact ⟨rfl, rfl⟩
  | op :: ops, x, b, f, h => by
    unfold runOps at h
    cases ho : op.run u x.s.buf with
    | none => rw [ho] at h; cases h
    | some b1 =>
      rw [ho] at h
      exact ⟨{ x with s := { x.s with buf := b1 } }, ⟨b1, ho, rfl⟩,
        draws_path ops { x with s := { x.s with buf := b1 } } b f h⟩

theorem asked_draws (ops : List BufOp) : (ops.map GOp.draw).filterMap GOp.asked = ops := by
  induction ops with
  | nil => rfl
  | cons op ops ih => exact congrArg (op :: ·) ih

/-- A call as steps. -/
theorem fine_path {K : BufOp → Prop} {x : WSess} (hg : GridOk x.s.buf) {op : WScrOp} {r : Option Event} {s : WScr}
    {c : Con} {D : List WEv} (hf : op.FineBy K u t x.s) (h : op.run u t x.s = .ok r s)
    (hl : s.w.log = x.s.w.log ++ D) (hr : x.c.Lives u t.inH D c) (f : Prop) :
    LivePath u t (ConEv.call op r).steps x f ⟨s, c⟩ ((ConEv.call op r).current x f) := by
  have silent : ∀ {a b : WinSt}, a.log = b.log → a.log = b.log ++ D → x.c = c := by
    intro a b e1 e2
    rw [e1] at e2
    have : D = [] := by simpa using e2.symm
    subst this
    exact hr.symm
  cases op with
  | draw op =>
    obtain ⟨_, s1, h1, h2⟩ := sm_bind_ok h
    have h2 : SRes.ok none s1 = .ok r s := h2
    cases h2
    cases ho : op.run u x.s.buf with
    | none =>
      rw [wsCall, sm_bind, sm_get] at h1
      dsimp only at h1
      rw [ho] at h1
      cases h1
    | some b =>
      have h3 := wsCall_draw (t := t) ho
      unfold SM.ignore at h3
      rw [h1] at h3
      have h3 : SRes.ok () s = .ok () { x.s with buf := b } := h3
      cases h3
      have e := silent (a := x.s.w) rfl hl
      subst e
      exact ⟨_, ⟨b, ho, rfl⟩, rfl, rfl⟩
  | refresh =>
    obtain ⟨_, s1, h1, h2⟩ := sm_bind_ok h
    have h2 : SRes.ok none s1 = .ok r s := h2
    cases h2
    have h3 : wsRefresh u t x.s = .ok () s := by
      cases hw : wsRefresh u t x.s with
      | ok a s' =>
        have := C56_win_refresh_call u t x.s s' hg hw
        rw [h1] at this
        cases this
        rfl
      | err e s' =>
        unfold wsRefreshCall at h1
        rw [hw] at h1
        dsimp only at h1
        cases hd : wsGuardDrop u t s' <;> rw [hd] at h1 <;> cases h1
      | stop w =>
        unfold wsRefreshCall at h1
        rw [hw] at h1
        cases h1
    exact ⟨⟨s, c⟩, ⟨h3, D, hl, hr⟩, rfl, rfl⟩
  | setCursorMode m => exact hf.elim
  | guard gs =>
    obtain ⟨ops, b, s', rfl, k1, k2, k3⟩ := hf
    obtain ⟨_, s1, h1, h2⟩ := sm_bind_ok h
    have h2 : SRes.ok none s1 = .ok r s := h2
    cases h2
    have h4 : wsGuardSession u t (ops.map GOp.draw) x.s = .ok () s' := C56_win_session u t ops x.s s' b k2 k3
    rw [h1] at h4
    cases h4
    show LivePath u t (((ops.map GOp.draw).filterMap GOp.asked).map LiveStep.draw ++ [.refresh]) x f ⟨s, c⟩ f
    rw [asked_draws]
    exact livePath_join _ _ _ _ _ _ _ _ (draws_path ops x b f k2) ⟨⟨s, c⟩, ⟨k3, D, hl, hr⟩, rfl, rfl⟩
  | waitEvent d =>
    obtain ⟨_, s1, h1, h2⟩ := sm_bind_ok h
    have h2 : SRes.ok none s1 = .ok r s := h2
    cases h2
    obtain ⟨g1, g2⟩ := onT_ok h1
    obtain ⟨c', p1, ⟨q, rfl⟩, k2, k3, -⟩ := (does_wait (u := u) x.c x.s.w t d).ok _ _
      (WQuiet.refl _ _) _ _ D g1 hl (lives_runs _ _ _ hr)
    have p1 := lives_play _ _ _ _ hr p1
    exact ⟨⟨s, c⟩, ⟨g2, k2, k3, by rw [p1], by rw [p1]⟩, rfl, rfl⟩
  | readEvent d =>
    by_cases hz : ∃ z, r = some (.resize z)
    · obtain ⟨z, rfl⟩ := hz
      exact C77_read_resize (u := u) (t := t) (x := x) (y := ⟨s, c⟩) h hl hr f
    · have hno : ∀ z, r ≠ some (.resize z) := fun z e => hz ⟨z, e⟩
      have := C77_read_other (u := u) (t := t) (x := x) (y := ⟨s, c⟩) h hl hr hno f
      have e1 : (ConEv.call (.readEvent d) r).current x f = f := by
        unfold ConEv.current
        split
        · rename_i z e; cases e; exact (hno z rfl).elim
        · rfl
        · rename_i e; cases e
      have e2 : (ConEv.call (.readEvent d) r).steps = [.other] := by
        cases r with
        | none => rfl
        | some e => cases e <;> first | rfl | exact (hno _ rfl).elim
      rw [e1, e2]
      exact this

/-- The steps draw what the call draws. -/
theorem steps_asked (e : ConEv) : e.steps.filterMap LiveStep.asOp = e.asked := by
  cases e with
  | window o => rfl
  | call op r =>
    cases op with
    | guard gs =>
      show List.filterMap _ ((gs.filterMap GOp.asked).map LiveStep.draw ++ [.refresh]) = gs.filterMap GOp.asked
      rw [List.filterMap_append, List.filterMap_map]
      show List.filterMap (fun x => some x) _ ++ [] = _
      rw [List.append_nil, List.filterMap_some]
    | readEvent d =>
      cases r with
      | none => rfl
      | some e => cases e <;> rfl
    | _ => rfl

theorem steps_end {op : WScrOp} (h : op = .refresh ∨ ∃ gs, op = .guard gs) (r : Option Event) :
    ∃ pre, (ConEv.call op r).steps = pre ++ [.refresh] := by
  rcases h with rfl | ⟨gs, rfl⟩
  · exact ⟨[], rfl⟩
  · exact ⟨_, rfl⟩

theorem steps_narrow {op : WScrOp} {s : WScr} {r : Option Event} (hf : op.Fine u t s)
    (hn : ∀ z, r = some (.resize z) → ConSize z) : ∀ a ∈ (ConEv.call op r).steps, a.Narrow u := by
  intro a ha
  cases op with
  | draw op => cases List.mem_singleton.mp ha; exact hf
  | guard gs =>
    obtain ⟨ops, b, s', rfl, k1, -⟩ := hf
    have ha : a ∈ ((ops.map GOp.draw).filterMap GOp.asked).map LiveStep.draw ++ [.refresh] := ha
    rw [asked_draws] at ha
    rcases List.mem_append.mp ha with ha | ha
    · obtain ⟨op, ho, rfl⟩ := List.mem_map.mp ha
      exact k1 op ho
    · cases List.mem_singleton.mp ha
      trivial
  | setCursorMode m => exact hf.elim
  | readEvent d =>
    by_cases hz : ∃ z, r = some (.resize z)
    · obtain ⟨z, rfl⟩ := hz
      rcases List.mem_cons.mp (show a ∈ [LiveStep.reported z, .other] from ha) with rfl | ha
      · exact hn z rfl
      · cases List.mem_singleton.mp ha
        trivial
    · have e2 : (ConEv.call (.readEvent d) r).steps = [.other] := by
        cases r with
        | none => rfl
        | some e => cases e <;> first | rfl | exact (hz ⟨_, rfl⟩).elim
      rw [e2] at ha
      cases List.mem_singleton.mp ha
      trivial
  | refresh => cases List.mem_singleton.mp ha; trivial
  | waitEvent d => cases List.mem_singleton.mp ha; trivial

/-- A history as a path from the opening of the screen on; with two-column characters, provided that every
step is safe. -/
theorem hist_path_by (hT : TableOk u) {K : BufOp → Prop} {N : Prop} {cfg : PrepareConfig} {z : Size} (hz : ConSize z)
    {x0 : WSess} (hx : WOpened u t cfg z x0) (hwin : ∀ o, x0.c.outs x0.s.w.outH = some o → WholeWindow o)
    {x y : WSess} {f g : Prop} {es : List ConEv} (h : WHistBy K u t x f es y g) :
    ∀ before, (LiveWideRun u t x0 True (before ++ es.flatMap ConEv.steps) ∨ N) →
    (N → ∀ a ∈ before ++ es.flatMap ConEv.steps, LiveStep.Narrow u a) →
    LivePath u t before x0 True x f → LivePath u t (before ++ es.flatMap ConEv.steps) x0 True y g := by
  induction h with
  | done x f =>
    intro before _ _ hp
    rw [List.flatMap_nil, List.append_nil]
    exact hp
  | @call x y f g op r s c D es hf hrun hl hr _ ih =>
    intro before hb hN hpath
    obtain ⟨i0, hb0⟩ := live_opened hT hz hx hwin (N := N)
    obtain ⟨⟨⟨_, _, i1, -⟩, -⟩, -⟩ := wliveInv_run hT before x0 x _ _ (Buf.new z) i0 (by rw [hb0]; rfl)
      (hb.imp (fun hb => (liveWide_append _ _ _ _ hb).1) id)
      (fun n a ha => hN n a (List.mem_append_left _ ha)) hpath
    have hp := livePath_join _ _ _ _ _ _ _ _ hpath (fine_path i1.grid hf hrun hl hr f)
    rw [List.flatMap_cons, ← List.append_assoc] at hb hN ⊢
    exact ih _ hb hN hp
  | @window x y f g o0 o es h1 h2 h3 h4 h5 _ ih =>
    intro before hb hN hpath
    have hp := livePath_join before [.changed o] _ _ _ _ _ _ hpath
      ⟨{ x with c := x.c.setOut x.s.w.outH o }, ⟨rfl, ⟨x.c.queue, rfl⟩, o0, h1, h2, h3⟩, rfl, rfl⟩
    rw [List.flatMap_cons, ← List.append_assoc] at hb hN ⊢
    exact ih _ hb hN hp

theorem hist_narrow {x y : WSess} {f g : Prop} {es : List ConEv} (h : WHist u t x f es y g) :
    (∀ z, Event.resize z ∈ es.flatMap ConEv.tells → ConSize z) → ∀ a ∈ es.flatMap ConEv.steps, a.Narrow u := by
  induction h with
  | done x f => intro _ a ha; cases ha
  | @call x y f g op r s c D es hf hrun hl hr _ ih =>
    intro hn a ha
    rcases List.mem_append.mp (show a ∈ (ConEv.call op r).steps ++ es.flatMap ConEv.steps from ha) with ha | ha
    · exact steps_narrow hf (fun z e => hn z (by rw [e]; exact List.mem_cons_self)) a ha
    · exact ih (fun z hz => hn z (List.mem_append_right _ hz)) a ha
  | @window x y f g o0 o es h1 h2 h3 h4 h5 _ ih =>
    intro hn a ha
    rcases List.mem_cons.mp (show a ∈ LiveStep.changed o :: es.flatMap ConEv.steps from ha) with rfl | ha
    · exact ⟨h4, h5⟩
    · exact ih hn a ha

theorem arriving_append (a b : List WEv) : arriving (a ++ b) = arriving a ++ arriving b := by
  induction a with
  | nil => rfl
  | cons e a ih =>
    cases e with
    | ctrl t h w => cases w <;> simp [arriving, ih]
    | _ => simp [arriving, ih]

/-- The queue is what was there and arrived, without what was read. -/
theorem lives_account {k : Nat} : ∀ (D : List WEv) (c c' : Con), c.Lives u k D c' →
    takenRecs D ++ c'.queue = c.queue ++ arriving D
  | [], c, c', h => by cases h; simp [takenRecs, arriving]
  | e :: D, c, c', ⟨h1, c1, h2, h3⟩ => by
    have ih := lives_account D c1 c' h3
    unfold Con.May at h2
    cases hs : c.step u k e with
    | some c2 =>
      rw [hs] at h2
      cases h2
      have := queue_account (u := u) (k := k) [e] c c1 ⟨h1, fun _ _ => trivial⟩ (by
        show (c.step u k e).bind _ = _
        rw [hs]; rfl)
      have ht := takenRecs_append [e] D
      have ha := arriving_append [e] D
      rw [List.singleton_append] at ht ha
      rw [ht, ha, List.append_assoc, ih, ← List.append_assoc, this, List.append_assoc]
    | none =>
      rw [hs] at h2
      obtain ⟨h, us, n, o, o', rfl, -, rfl, -⟩ := h2
      exact ih

end Mortal
