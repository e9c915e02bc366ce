import Verif.Lemmas.WinUserActs
import Verif.Lemmas.SizeKnown
import Verif.Props.WinScreen
import Verif.Spec.WinUserScreen

/-! # Reading records through a screen -/

namespace Mortal
open Spec

/-- Nothing is read, and the buffer keeps its size. -/
def SNone (s s' : WScr) : Prop := ReadsNone s.w s'.w ∧ s'.buf.size = s.buf.size

theorem SNone.refl (s : WScr) : SNone s s := ⟨.refl _, rfl⟩

theorem SNone.trans {a b c : WScr} (h : SNone a b) (h' : SNone b c) : SNone a c :=
  ⟨h.1.trans h'.1, h'.2.trans h.2⟩

/-- Code of that kind. -/
def SInert {α : Type} (m : SWM α) : Prop :=
  ∀ s, (∀ a s', m s = .ok a s' → SNone s s') ∧ (∀ e s', m s = .err e s' → SNone s s')

theorem SInert.pure {α : Type} (a : α) : SInert (pure a : SWM α) :=
  fun s => ⟨fun _ _ h => by cases h; exact .refl s, fun _ _ h => by cases h⟩

theorem SInert.bind {α β : Type} {m : SWM α} {f : α → SWM β} (h : SInert m) (hf : ∀ a, SInert (f a)) :
    SInert (m >>= f) := by
  refine fun s => ⟨fun b s' e => ?_, fun x s' e => ?_⟩
  · obtain ⟨a, s1, h1, h2⟩ := sm_bind_ok e
    exact ((h s).1 a s1 h1).trans ((hf a s1).1 b s' h2)
  · rcases sm_bind_err e with h1 | ⟨a, s1, h1, h2⟩
    · exact (h s).2 _ _ h1
    · exact ((h s).1 a s1 h1).trans ((hf a s1).2 _ s' h2)

theorem sinert_get : SInert (SM.get : SWM WScr) :=
  fun s => ⟨fun _ _ h => by cases h; exact .refl s, fun _ _ h => by cases h⟩

theorem sinert_ofPanics {α : Type} (x : Panics α) : SInert (SM.ofPanics x : SWM α) := by
  cases x with
  | none => exact fun s => ⟨fun _ _ h => by (cases h), fun _ _ h => by (cases h)⟩
  | some a => exact SInert.pure a

theorem sinert_modify {f : WScr → WScr} (h1 : ∀ s, (f s).w = s.w) (h2 : ∀ s, (f s).buf.size = s.buf.size) :
    SInert (SM.modify f) := by
  refine fun s => ⟨fun _ _ h => ?_, fun _ _ h => by cases h⟩
  cases h
  exact ⟨by rw [h1]; exact .refl _, h2 s⟩

theorem sinert_onT {α : Type} {m : WM α} (h : Inert m) : SInert (onT m) := by
  refine fun s => ⟨fun a s' e => ?_, fun x s' e => ?_⟩
  · obtain ⟨h1, h2⟩ := onT_ok e
    exact ⟨(h _).1 _ _ h1, by rw [h2]⟩
  · obtain ⟨h1, h2⟩ := onT_err e
    exact ⟨(h _).2 _ _ h1, by rw [h2]⟩

theorem sinert_ignore {m : SWM Unit} (h : SInert m) : SInert (SM.ignore m) := by
  refine fun s => ⟨fun a s' e => ?_, fun x s' e => ?_⟩ <;> unfold SM.ignore at e <;>
    cases hm : m s <;> rw [hm] at e <;> cases e
  · exact (h s).1 _ _ hm
  · exact (h s).2 _ _ hm

theorem sinert_move (p : Cursor) : SInert (wsMoveCursor p) := by
  unfold wsMoveCursor
  refine .bind sinert_get fun s => ?_
  split
  · exact .bind (sinert_onT (by unfold winMoveCursor moveAbs; inert_tac)) fun _ =>
      sinert_modify (fun _ => rfl) (fun _ => rfl)
  · exact .pure _

theorem sinert_cell (t : WTerm) (src : Theme) (p : Cursor) (c : Cell) : SInert (wsDrawCell t src p c) := by
  unfold wsDrawCell applyAttrs
  refine .bind (sinert_move p) fun _ => ?_
  have ha : SInert (if src ≠ cellTheme c then onT (winSetAttributes t (cellTheme c)) else pure ()) := by
    split
    · exact sinert_onT (inert_attr t (.theme _))
    · exact .pure _
  refine .bind ha fun _ => .bind (sinert_onT (Inert.bind inert_get fun _ => inert_writeLoop _ _ _)) fun _ =>
    .bind sinert_get fun _ => .bind (sinert_ofPanics _) fun _ => sinert_modify (fun _ => rfl) (fun _ => rfl)

theorem sinert_loop (u : UEnv) (t : WTerm) : ∀ (f : Nat) (r : Nat × Nat) (src : Theme),
    SInert (wsDrawLoop u t f r src)
  | 0, _, _ => fun s => ⟨fun _ _ h => by (cases h), fun _ _ h => by (cases h)⟩
  | f + 1, (idx, n), src => by
    unfold wsDrawLoop
    have key : ∀ s : WScr, ∀ v, s.buf.nextCell u n idx = some v → v.1.size = s.buf.size := by
      intro s v h
      rw [nextCell_keep u s.buf n n idx (Nat.le_refl _) v h]
      rfl
    intro s
    simp only [sm_bind]
    simp only [show (SM.get : SWM WScr) s = .ok s s from rfl]
    cases hn : s.buf.nextCell u n idx with
    | none => exact ⟨fun _ _ h => by (cases h), fun _ _ h => by (cases h)⟩
    | some v =>
      obtain ⟨b, rest, found⟩ := v
      have h1 : SNone s { s with buf := b } := ⟨.refl _, key s _ hn⟩
      clear hn key
      have h2 : SInert (match found with
          | none => pure ()
          | some (pos, cell) => wsDrawCell t src pos cell >>= fun _ => wsDrawLoop u t f rest (cellTheme cell) : SWM Unit) := by
        cases found with
        | none => exact .pure _
        | some v => exact .bind (sinert_cell t src v.1 v.2) fun _ => sinert_loop u t f rest _
      simp only [SM.ofPanics, SM.modify]
      exact ⟨fun a s' h => h1.trans ((h2 _).1 a s' h), fun a s' h => h1.trans ((h2 _).2 a s' h)⟩

theorem sinert_refresh (u : UEnv) (t : WTerm) : SInert (wsRefresh u t) := by
  unfold wsRefresh wsClearIfNeeded wsPlaceCursor
  have hc : SInert (onT (winClearAttributes t)) := sinert_onT (inert_attr t .clear)
  refine .bind (.bind sinert_get fun s => ?_) fun _ => .bind hc fun _ => .bind sinert_get fun s =>
    .bind (sinert_loop u t _ _ _) fun _ => .bind hc fun _ => .bind sinert_get fun s => ?_
  · unfold SM.when
    split
    · exact .bind (sinert_onT (by unfold winClearScreen clearArea moveAbs moveWindow; inert_tac)) fun _ =>
        sinert_modify (fun _ => rfl) (fun _ => rfl)
    · exact .pure _
  · split
    · exact .bind (sinert_ofPanics _) fun _ => sinert_move _
    · exact sinert_move _

theorem sinert_drop (u : UEnv) (t : WTerm) : SInert (wsGuardDrop u t) := sinert_ignore (sinert_refresh u t)

theorem sinert_refreshCall (u : UEnv) (t : WTerm) : SInert (wsRefreshCall u t) := by
  have h1 := sinert_refresh u t
  have h2 := sinert_drop u t
  refine fun s => ⟨fun a s' e => ?_, fun x s' e => ?_⟩ <;> unfold wsRefreshCall at e <;>
    cases hm : wsRefresh u t s <;> rw [hm] at e <;> dsimp only at e
  · exact ((h1 s).1 _ _ hm).trans ((h2 _).1 _ _ e)
  · rename_i s1
    cases hd : wsGuardDrop u t s1 <;> rw [hd] at e <;> cases e
  · cases e
  · exact ((h1 s).1 _ _ hm).trans ((h2 _).2 _ _ e)
  · rename_i s1
    cases hd : wsGuardDrop u t s1 <;> rw [hd] at e <;> cases e
    · exact ((h1 s).2 _ _ hm).trans ((h2 _).1 _ _ hd)
    · exact ((h1 s).2 _ _ hm).trans ((h2 _).2 _ _ hd)
  · cases e

theorem sinert_call {u : UEnv} (hu : SpaceOk u) (t : WTerm) (op : GOp) (h : ∀ z, op ≠ .draw (.resize z)) :
    SInert (wsCall u t op) := by
  cases op with
  | refresh => exact sinert_refresh u t
  | setCursorMode m => exact sinert_onT (by unfold winCursorMode; inert_tac)
  | draw op =>
    refine fun s => ⟨fun a s' e => ?_, fun x s' e => ?_⟩
    · unfold wsCall at e
      obtain ⟨s1, s2, e1, e⟩ := sm_bind_ok e
      cases e1
      obtain ⟨b, s3, e1, e2⟩ := sm_bind_ok e
      cases hb : op.run u s.buf with
      | none => rw [hb] at e1; cases e1
      | some b' =>
        rw [hb] at e1
        cases e1
        cases e2
        exact ⟨.refl _, (op_effect hu (fun z hz => h z (by rw [hz])) hb).size⟩
    · unfold wsCall at e
      rcases sm_bind_err e with e1 | ⟨s1, s2, e1, e⟩
      · cases e1
      · cases e1
        rcases sm_bind_err e with e1 | ⟨b, s3, e1, e2⟩
        · cases hb : op.run u s.buf <;> rw [hb] at e1 <;> cases e1
        · cases e2

theorem sinert_session {u : UEnv} (hu : SpaceOk u) (t : WTerm) : ∀ (ops : List GOp),
    (∀ z, .draw (.resize z) ∉ ops) → SInert (wsGuardSession u t ops)
  | [], _ => sinert_drop u t
  | op :: ops, h => .bind (sinert_ignore (sinert_call hu t op fun z e => h z (by rw [e]; exact List.mem_cons_self)))
      fun _ => sinert_session hu t ops fun z hz => h z (List.mem_cons_of_mem _ hz)

/-- A call that is not `read_event`. -/
theorem sinert_op {u : UEnv} (hu : SpaceOk u) (t : WTerm) (op : WScrOp) (hp : op.Public)
    (hr : ∀ d, op ≠ .readEvent d) : SInert (op.run u t) ∧ ∀ s a s', op.run u t s = .ok a s' → a = none := by
  have quiet : ∀ {α : Type} {m : SWM α}, SInert m →
      SInert (m >>= fun _ => pure none : SWM (Option Event)) ∧
      ∀ s a s', (m >>= fun _ => pure none : SWM (Option Event)) s = .ok a s' → a = none := by
    refine fun hm => ⟨.bind hm fun _ => .pure _, fun s a s' h => ?_⟩
    obtain ⟨_, _, _, h2⟩ := sm_bind_ok h
    cases h2
    rfl
  cases op with
  | draw op => exact quiet (sinert_call hu t _ fun z e => hp z (by injection e))
  | refresh => exact quiet (sinert_refreshCall u t)
  | setCursorMode m => exact quiet (sinert_onT (by unfold winCursorMode; inert_tac))
  | guard ops => exact quiet (sinert_session hu t ops hp)
  | waitEvent d => exact quiet (sinert_onT (inert_wait t d))
  | readEvent d => exact absurd rfl (hr d)

/-- `read_event` on a screen. -/
theorem wsReadEvent_took (t : WTerm) (d : Option Duration) (s s' : WScr) :
    (∀ a, wsReadEvent t d s = .ok a s' → winReadEvent t d s.w = .ok a s'.w ∧
      s'.buf.size = (match a with | some (.resize z) => z | _ => s.buf.size)) ∧
    (∀ e, wsReadEvent t d s = .err e s' → SNone s s') := by
  constructor
  · intro a h
    have hd := (C48_win_read_event t d s s').1 a h
    have hw : winReadEvent t d s.w = .ok a s'.w := by
      unfold wsReadEvent at h
      obtain ⟨o, s1, h1, h⟩ := sm_bind_ok h
      obtain ⟨h1, -⟩ := onT_ok h1
      split at h
      · obtain ⟨_, s2, h2, h3⟩ := sm_bind_ok h
        cases h3
        unfold wsUpdateSize at h2
        obtain ⟨_, _, k1, h2⟩ := sm_bind_ok h2
        cases k1
        obtain ⟨dd, _, k1, h2⟩ := sm_bind_ok h2
        cases h2
        have : ∀ (x : Panics SData) (w : WScr), (SM.ofPanics x : SWM SData) s1 = .ok dd w → w = s1 := by
          intro x w hx
          cases x <;> cases hx
          rfl
        rw [← this _ _ k1] at h1
        exact h1
      · cases h; exact h1
    refine ⟨hw, ?_⟩
    split
    · exact (hd.1 _ rfl).1
    · rename_i hn
      rw [hd.2 fun z e => hn z e]
  · intro e h
    have hd := (C48_win_read_event t d s s').2 e h
    refine ⟨?_, by rw [hd]⟩
    unfold wsReadEvent at h
    rcases sm_bind_err h with h1 | ⟨o, s1, h1, h2⟩
    · exact (readEvent_took t d s.w).2 _ _ (onT_err h1).1
    · split at h2
      · rcases sm_bind_err h2 with h3 | ⟨_, _, _, h3⟩
        · unfold wsUpdateSize at h3
          rcases sm_bind_err h3 with h4 | ⟨_, _, h4, h3⟩
          · cases h4
          · cases h4
            rcases sm_bind_err h3 with h4 | ⟨_, _, _, h5⟩
            · cases hx : s1.updateSize _ <;> rw [hx] at h4 <;> cases h4
            · cases h5
        · cases h3
      · cases h2

theorem told_append (a b : List Event) : told (a ++ b) = told a ++ told b := List.filter_append ..

theorem told_one (e : Event) : told [e] = tellOf e := by cases e <;> rfl

theorem lastSize_append (z : Size) (a b : List Event) : lastSize z (a ++ b) = lastSize (lastSize z a) b := by
  induction a generalizing z with
  | nil => rfl
  | cons e a ih => cases e <;> exact ih _

theorem lastSize_told (z : Size) (l : List Event) : lastSize z (told l) = lastSize z l := by
  induction l generalizing z with
  | nil => rfl
  | cons e l ih => cases e <;> exact ih _

/-- Calls on a screen, with the records that wait in the queue. -/
theorem screen_told {u : UEnv} (hu : SpaceOk u) {t : WTerm} {cfg : PrepareConfig} {mode held' : BitVec 32}
    (ops : List WScrOp) : ∀ {s s' : WScr} {n : List Event}
    {acts : List ConAct} {D : List WEv} {Q : List InRec}, (∀ op ∈ ops, op.Public) → AsPrepared cfg mode s.w.rd →
    wsCallsMade u t ops s = some (n, s') → s'.w.log = s.w.log ++ D → (∀ a ∈ acts, a.Possible) →
    Queued mode s.w.rd.prev acts (takenRecs D ++ Q) held' →
    ∃ done rest, acts = done ++ rest ∧ told n = (done.filter (ConAsked cfg)).map ConAct.event ∧
      AsPrepared cfg mode s'.w.rd ∧ Queued mode s'.w.rd.prev rest Q held' ∧
      s'.buf.size = lastSize s.buf.size n := by
  have log : ∀ (ops : List WScrOp) {s s' : WScr} {n : List Event}, (∀ op ∈ ops, op.Public) →
      wsCallsMade u t ops s = some (n, s') → ∃ D, s'.w.log = s.w.log ++ D := by
    intro ops
    induction ops with
    | nil => intro s s' n _ h; cases h; exact ⟨[], by simp⟩
    | cons op ops ih =>
      intro s s' n hp h
      have hops := fun o h => hp o (List.mem_cons_of_mem _ h)
      have one : ∀ s1 : WScr, ((∃ a, op.run u t s = .ok a s1) ∨ (∃ e, op.run u t s = .err e s1)) →
          ∃ D, s1.w.log = s.w.log ++ D := by
        intro s1 h1
        by_cases hre : ∃ d, op = .readEvent d
        · obtain ⟨d, rfl⟩ := hre
          rcases h1 with ⟨a, h1⟩ | ⟨e, h1⟩
          · have := ((wsReadEvent_took t d s s1).1 a h1).1
            rcases (readEvent_took t d s.w).1 _ _ this with ⟨⟨⟨D, k, -⟩, -⟩, -⟩ | ⟨r, e, ⟨D, k, -⟩, -⟩
            · exact ⟨D, k⟩
            · exact ⟨D, k⟩
          · obtain ⟨⟨⟨D, k, -⟩, -⟩, -⟩ := (wsReadEvent_took t d s s1).2 e h1
            exact ⟨D, k⟩
        · have hi := (sinert_op hu t op (hp op (by simp)) fun d e => hre ⟨d, e⟩).1
          rcases h1 with ⟨a, h1⟩ | ⟨e, h1⟩
          · obtain ⟨⟨⟨D, k, -⟩, -⟩, -⟩ := (hi s).1 _ _ h1
            exact ⟨D, k⟩
          · obtain ⟨⟨⟨D, k, -⟩, -⟩, -⟩ := (hi s).2 _ _ h1
            exact ⟨D, k⟩
      unfold wsCallsMade at h
      cases e : op.run u t s with
      | stop w => rw [e] at h; cases h
      | ok a s1 =>
        rw [e] at h
        dsimp only at h
        rw [Option.map_eq_some_iff] at h
        obtain ⟨⟨n1, s2⟩, h1, h2⟩ := h
        cases h2
        obtain ⟨D1, k1⟩ := one s1 (Or.inl ⟨a, e⟩)
        obtain ⟨D2, k2⟩ := ih hops h1
        exact ⟨D1 ++ D2, by rw [k2, k1, List.append_assoc]⟩
      | err a s1 =>
        rw [e] at h
        dsimp only at h
        obtain ⟨D1, k1⟩ := one s1 (Or.inr ⟨a, e⟩)
        obtain ⟨D2, k2⟩ := ih hops h
        exact ⟨D1 ++ D2, by rw [k2, k1, List.append_assoc]⟩
  induction ops with
  | nil =>
    intro s s' n acts D Q ho hm hn hl ha hq
    cases hn
    have : D = [] := by simpa using hl
    subst this
    exact ⟨[], acts, rfl, rfl, hm, hq, rfl⟩
  | cons op ops ih =>
    intro s s' n acts D Q ho hm hn hl ha hq
    have hop := ho op (by simp)
    have hops := fun o h => ho o (List.mem_cons_of_mem _ h)
    -- nothing read
    have quiet : ∀ s1 l n', SNone s s1 → told l = [] → wsCallsMade u t ops s1 = some (n', s') → n = l ++ n' →
        ∃ done rest, acts = done ++ rest ∧ told n = (done.filter (ConAsked cfg)).map ConAct.event ∧
          AsPrepared cfg mode s'.w.rd ∧ Queued mode s'.w.rd.prev rest Q held' ∧
          s'.buf.size = lastSize s.buf.size n := by
      rintro s1 l n' ⟨⟨⟨D1, h3, h4⟩, hrd⟩, hz⟩ ht h1 rfl
      obtain ⟨D2, h5⟩ := log ops hops h1
      obtain rfl : D = D1 ++ D2 := by
        rw [h5, h3, List.append_assoc] at hl
        exact (List.append_cancel_left hl).symm
      rw [takenRecs_append, h4, List.nil_append, ← hrd] at hq
      obtain ⟨done, rest, g1, g2, g3, g4, g5⟩ := ih hops (by rw [hrd]; exact hm) h1 h5 ha hq
      refine ⟨done, rest, g1, by rw [told_append, ht, List.nil_append, g2], g3, g4, ?_⟩
      rw [g5, hz, lastSize_append]
      congr 1
      rw [← lastSize_told, ht]
      rfl
    unfold wsCallsMade at hn
    cases e : op.run u t s with
    | stop w => rw [e] at hn; cases hn
    | err x s1 =>
      rw [e] at hn
      dsimp only at hn
      refine quiet s1 [] n ?_ rfl hn rfl
      by_cases hre : ∃ d, op = .readEvent d
      · obtain ⟨d, rfl⟩ := hre
        exact (wsReadEvent_took t d s s1).2 _ e
      · exact ((sinert_op hu t op hop fun d e => hre ⟨d, e⟩).1 s).2 _ _ e
    | ok a s1 =>
      rw [e] at hn
      dsimp only at hn
      rw [Option.map_eq_some_iff] at hn
      obtain ⟨⟨n1, s2⟩, h1, h2⟩ := hn
      cases h2
      by_cases hre : ∃ d, op = .readEvent d
      · obtain ⟨d, rfl⟩ := hre
        obtain ⟨hw, hz⟩ := (wsReadEvent_took t d s s1).1 _ e
        rcases (readEvent_took t d s.w).1 _ _ hw with ⟨k1, k2⟩ | ⟨r, ev, ⟨D1, h3, h4⟩, rfl, k3⟩
        · refine quiet s1 _ _ ⟨k1, ?_⟩ ?_ h1 rfl
          · rcases k2 with rfl | ⟨sig, rfl⟩ <;> exact hz
          · rcases k2 with rfl | ⟨sig, rfl⟩ <;> rfl
        · obtain ⟨D2, h5⟩ := log ops hops h1
          obtain rfl : D = D1 ++ D2 := by
            rw [h5, h3, List.append_assoc] at hl
            exact (List.append_cancel_left hl).symm
          rw [takenRecs_append, h4, List.append_assoc] at hq
          obtain ⟨done, rest, rfl, q1, q2, q3⟩ := queued_head hm hq ha rfl _ _ _ _ rfl k3
          have hm1 : AsPrepared cfg mode s1.w.rd :=
            ⟨hm.system, hm.sizes, hm.mouse, hm.edit, fun h => q2.trans (hm.track h)⟩
          obtain ⟨done', rest', rfl, w1, w2, w3, w4⟩ := ih hops hm1 h1 h5
            (fun a h => ha a (List.mem_append_right _ h)) q1
          refine ⟨done ++ done', rest', by rw [List.append_assoc], ?_, w2, w3, ?_⟩
          · rw [told_append, List.filter_append, List.map_append, ← w1, ← q3]
            congr 1
            exact told_one ev
          · rw [w4, lastSize_append, hz]
            congr 1
            cases ev <;> rfl
      · obtain ⟨hi, ha0⟩ := sinert_op hu t op hop fun d e => hre ⟨d, e⟩
        cases ha0 _ _ _ e
        exact quiet s1 [] n1 ((hi s).1 _ _ e) rfl h1 rfl

theorem inert_onErr {α : Type} {m : WM α} {c : WM Unit} (h : Inert m) (hc : Inert c) : Inert (SM.onErr m c) := by
  refine fun s => ⟨fun a s' e => ?_, fun x s' e => ?_⟩ <;> unfold SM.onErr at e <;>
    cases hm : m s <;> rw [hm] at e <;> dsimp only at e
  · cases e; exact (h s).1 _ _ hm
  · rename_i s1
    cases hd : c s1 <;> rw [hd] at e <;> cases e
  · cases e
  · cases e
  · rename_i s1
    cases hd : c s1 <;> rw [hd] at e <;> cases e
    · exact ((h s).2 _ _ hm).trans ((hc _).1 _ _ hd)
    · exact ((h s).2 _ _ hm).trans ((hc _).2 _ _ hd)
  · cases e

/-- A new screen ends with `prepare`. -/
theorem screenNew_prepares {t : WTerm} {cfg : PrepareConfig} {s s1 : WinSt} {x : WScreen} {d : SData}
    (h : winScreenNew t cfg s = .ok (x, d) s1) :
    ∃ s0 p, ReadsNone s s0 ∧ winPrepare t cfg s0 = .ok p s1 := by
  have key : ∀ {m : WM (WScreen × SData)} {c : WM Unit}, SM.onErr m c s = .ok (x, d) s1 →
      m s = .ok (x, d) s1 := by
    intro m c e
    unfold SM.onErr at e
    cases hm : m s with
    | ok a s3 => rw [hm] at e; exact e
    | err e' s3 => rw [hm] at e; dsimp only at e; cases hd : c s3 <;> rw [hd] at e <;> cases e
    | stop w => rw [hm] at e; cases e
  have h := key h
  obtain ⟨size, a1, h1, h⟩ := sm_bind_ok h
  obtain ⟨old, a2, h2, h⟩ := sm_bind_ok h
  obtain ⟨p, a3, h3, h⟩ := sm_bind_ok h
  cases h
  have i1 : Inert winSize := by unfold winSize consoleSize; inert_tac
  have i2 : Inert winEnterScreen := by
    unfold winEnterScreen handleCall setConsoleMode
    refine .bind i1 fun _ => .bind (by inert_tac) fun _ => .bind (inert_onErr ?_ (inert_boolCall rfl)) fun _ => ?_
    · unfold setupScreen; inert_tac
    · inert_tac
  exact ⟨a2, p, ((i1 s).1 _ _ h1).trans ((i2 _).1 _ _ h2), h3⟩

end Mortal
