import Verif.Lemmas.LiveQuiet
import Verif.Props.ScreenGuard
import Verif.Spec.LiveWide

/-! # A screen in front of a terminal that may have changed -/

namespace Mortal
open Spec

/-! ## With and without two-column characters -/

/-- Right halves on the terminal are known from the screen's records. -/
def RightsKnown (u : UEnv) (x : Sess) : Prop :=
  x.s.clear = false → ∀ p, InBounds p x.t.size → x.t.cell p = .right → CoveredBefore u x.s.buf p

/-- What holds between the calls, without (`m = false`) or with (`m = true`) two-column characters. -/
def CalmScr (u : UEnv) (env : WEnv) : Bool → Sess → Prop
  | false, x => NInv u env [] x
  | true, x => WInv u env x ∧ RightsKnown u x

/-- The condition on a drawing call. -/
def DrawOk (u : UEnv) (b : Buf) (op : BufOp) : Bool → Prop
  | false => NarrowDraw u op
  | true => WideDraw u b op

theorem DrawOk.noResize {u : UEnv} {b : Buf} {op : BufOp} : ∀ {m : Bool}, DrawOk u b op m →
    ∀ z, op ≠ .resize z
  | false, h => h.1
  | true, h => h.1

theorem mem_nil_false : (fun j => j ∈ ([] : List Nat)) = fun _ => False := by funext j; simp

theorem CalmScr.held {u : UEnv} {env : WEnv} : ∀ {m : Bool} {x : Sess}, CalmScr u env m x →
    Held u (fun _ => False) x.s x.t
  | false, _, h => by rw [← mem_nil_false]; exact NInv.held h
  | true, _, h => h.1.held

theorem CalmScr.dlv {u : UEnv} {env : WEnv} : ∀ {m : Bool} {x : Sess}, CalmScr u env m x → Delivered env x.s.w
  | false, _, h => NInv.dlv h
  | true, _, h => h.1.dlv

theorem CalmScr.draw {u : UEnv} (hT : TableOk u) {env : WEnv} (hdb : DrawDB env) {m : Bool} {s : Scr}
    {t : Term} (h : CalmScr u env m ⟨s, t⟩) {op : BufOp} (hop : DrawOk u s.buf op m) {b : Buf}
    (e : op.run u s.buf = some b) : CalmScr u env m ⟨{ s with buf := b }, t⟩ := by
  have er : (SStep.draw op).run u env ⟨s, t⟩ = some (true, ⟨{ s with buf := b }, t⟩) := by
    simp only [SStep.run, e, Option.map_some]
  cases m with
  | false =>
    obtain ⟨bad, g, hb⟩ := NInv.step hT hdb h (st := .draw op) hop er
    have : bad = [] := List.eq_nil_of_length_eq_zero (Nat.le_zero.mp hb)
    subst this
    exact g
  | true =>
    obtain ⟨h1, h2⟩ := h
    refine ⟨h1.step hT hdb (st := .draw op) hop er, ?_⟩
    have he := op_effect hT.space hop.1 e
    intro hc p hp hr
    have := h2 hc p hp hr
    unfold CoveredBefore at this ⊢
    show _ ∧ ∃ c, b.back[numOf b.size _]? = _ ∧ _
    rw [he.back, he.size]
    exact this

theorem CalmScr.resized {u : UEnv} (hT : TableOk u) {env : WEnv} (hdb : DrawDB env) {m : Bool} {s : Scr}
    {t : Term} (h : CalmScr u env m ⟨s, t⟩) {z : Size} (hz : ScreenSize z)
    (hs : m = true → SafeOp u s.buf (.resize z)) {d : SData} (e : s.updateSize z = some d) :
    CalmScr u env m ⟨{ d with w := s.w },
      { size := z, cell := fun _ => .narrow [' '] .plain, cur := none, last := none,
        attrs := t.attrs, bce := t.bce }⟩ := by
  have hp : Term.Paired (A := DevAttrs) ⟨z, fun _ => .narrow [' '] .plain, none, none, .plain, true⟩ :=
    ⟨fun l c hp => (by cases hp), fun l c x d hp => (by cases hp)⟩
  have er : (SStep.resized z (fun _ => .narrow [' '] .plain) none).run u env ⟨s, t⟩ = some (true,
      ⟨{ d with w := s.w },
        { size := z, cell := fun _ => .narrow [' '] .plain, cur := none, last := none,
          attrs := t.attrs, bce := t.bce }⟩) := by
    simp only [SStep.run, e, Option.map_some]
  cases m with
  | false =>
    obtain ⟨bad, g, hb⟩ := NInv.step hT hdb h
      (st := .resized z (fun _ => .narrow [' '] .plain) none) ⟨hz, hp⟩ er
    have : bad = [] := List.eq_nil_of_length_eq_zero (Nat.le_zero.mp hb)
    subst this
    exact g
  | true =>
    refine ⟨h.1.step hT hdb (st := .resized z (fun _ => .narrow [' '] .plain) none)
      ⟨hz, hs rfl, hp⟩ er, fun _ p _ hr => ?_⟩
    cases hr

theorem CalmScr.mute {u : UEnv} {env : WEnv} {m : Bool} {s : Scr} {t : Term}
    (h : CalmScr u env m ⟨s, t⟩) {w : WS} (hw : Mute env s.w w) :
    CalmScr u env m ⟨{ s with w := w }, t⟩ := by
  obtain ⟨new, l, hs⟩ := hw.log
  have hl := h.held.lk
  have hlk : Lk w t := ⟨by
      show devAttrs w.log = view w.theme
      rw [hw.theme, l]
      unfold devAttrs
      rw [List.foldl_append, silent_fold hs]
      exact hl.dev, by
      show t.attrs = view w.theme
      rw [hw.theme]; exact hl.term⟩
  cases m with
  | false =>
    have h1 : NInv u env [] ⟨s, t⟩ := h
    exact ⟨{ h1.held with lk := hlk }, h1.narrow, h1.noWide, hw.dlv h1.dlv⟩
  | true => exact ⟨⟨{ h.1.held with lk := hlk }, h.1.whole, hw.dlv h.1.dlv⟩, h.2⟩

/-- After a refresh, right halves are known from the records. -/
theorem After.rights {u : UEnv} (hu : SpaceOk u) {s : Scr} {t : Term}
    (h : After u (fun _ => False) s t) : RightsKnown u ⟨s, t⟩ := by
  intro _ p hp hr
  have hp' : InBounds p s.buf.size := by rw [← h.size]; exact hp
  have hd := h.displays hu
  have cell_at : ∀ q : Cursor, InBounds q s.buf.size → ∃ c, cellAt s.buf q = some c := fun q hq =>
    ⟨_, List.getElem?_eq_getElem (by rw [h.grid.len]; exact numOf_lt hq)⟩
  obtain ⟨h0, x, a, hleft⟩ := h.paired.1 p.line p.column hr
  have hq : InBounds ⟨p.line, p.column - 1⟩ s.buf.size :=
    ⟨hp'.1, by have := hp'.2; dsimp only; omega⟩
  obtain ⟨c, hc⟩ := cell_at p hp'
  obtain ⟨c', hc'⟩ := cell_at _ hq
  have hrp : RightHalf u s.buf p := by
    have := hd.2 p c hp' hc
    rw [show t.cell p = .right from hr] at this
    by_cases hn : RightHalf u s.buf p
    · exact hn
    · rw [if_neg hn] at this
      unfold picture at this
      split at this <;> cases this
  have hnq : ¬ RightHalf u s.buf ⟨p.line, p.column - 1⟩ := by
    intro hn
    have := hd.2 _ c' hq hc'
    rw [if_pos hn, hleft] at this
    cases this
  obtain ⟨-, c2, hc2, hw⟩ := hrp
  refine ⟨h0, c2, ?_, hw⟩
  exact h.synced _ _ ((live_iff h.torn hq).mpr hnq) hc2

theorem NothingStale.noReveal {u : UEnv} {env : WEnv} {x : Sess} (h : NothingStale u x.s.toSData)
    (hi : WInv u env x) (hk : RightsKnown u x) : NoReveal u x := by
  intro hc p hp hr hn
  refine h hc p ?_ (hk hc p hp hr) hn
  rw [← hi.held.size]; exact hp

/-- What a refresh does. -/
theorem CalmScr.refresh {u : UEnv} (hT : TableOk u) {env : WEnv} (hdb : DrawDB env) {m : Bool}
    {s s' : Scr} {t : Term} (h : CalmScr u env m ⟨s, t⟩) (hst : m = true → NothingStale u s.toSData)
    (e : s.refresh u env = .ok s') :
    ∃ new t', s'.w.log = s.w.log ++ new ∧ t.play u new = some t' ∧ CalmScr u env m ⟨s', t'⟩ ∧
      After u (fun _ => False) s' t' := by
  have hfine := fine_refresh (u := u) (env := env) (b := s.buf) (s := s) ⟨h.dlv, h.held.grid, rfl⟩
  rw [e] at hfine
  cases m with
  | false =>
    have h1 : NInv u env [] ⟨s, t⟩ := h
    obtain ⟨hok, -⟩ := refresh_sync hT.space hdb h1.held h1.stale (Or.inr ⟨h1.narrow, h1.noWide⟩)
    obtain ⟨new, t', l1, p1, a1, b1, n1⟩ := hok s' e
    refine ⟨new, t', l1, p1, ?_, by rw [← mem_nil_false]; exact a1⟩
    refine ⟨a1.toHeld, Or.inr (n1 h1.narrow h1.noWide), ?_, hfine.dlv⟩
    show NoWide u s'.buf
    rw [b1]; exact h1.noWide
  | true =>
    obtain ⟨h1, h2⟩ := h
    obtain ⟨hok, -⟩ := refresh_sync hT.space hdb h1.held
      (h1.stale (NothingStale.noReveal (x := ⟨s, t⟩) (hst rfl) h1 h2)) (Or.inl fun _ h => h)
    obtain ⟨new, t', l1, p1, a1, b1, n1⟩ := hok s' e
    exact ⟨new, t', l1, p1, ⟨⟨a1.toHeld, fun _ p hp => a1.whole hT.space p hp, hfine.dlv⟩,
      a1.rights hT.space⟩, a1⟩

/-- A screen in front of terminal `t`. There is a terminal that the screen's records describe; if the
last change of size is known (`k`), that is `t`, at least once it has been cleared. -/
def InView (u : UEnv) (env : WEnv) (m k : Bool) (s : Scr) (t : Term) : Prop :=
  ∃ tf, CalmScr u env m ⟨s, tf⟩ ∧ t.attrs = tf.attrs ∧ t.bce = tf.bce ∧ OsOk s.w ∧
    (k = true → t.size = tf.size ∧ (s.clear = false → t = tf))

theorem InView.unknown {u : UEnv} {env : WEnv} {m k : Bool} {s : Scr} {t t' : Term}
    (h : InView u env m k s t) (ha : t'.attrs = t.attrs) (hb : t'.bce = t.bce) :
    InView u env m false s t' := by
  obtain ⟨tf, h1, h2, h3, h4, -⟩ := h
  exact ⟨tf, h1, ha.trans h2, hb.trans h3, h4, fun e => by cases e⟩

/-- Drawing. -/
theorem InView.draw {u : UEnv} (hT : TableOk u) {env : WEnv} (hdb : DrawDB env) {m k : Bool} {s : Scr}
    {t : Term} (h : InView u env m k s t) {op : BufOp} (hop : DrawOk u s.buf op m) {b : Buf}
    (e : op.run u s.buf = some b) : InView u env m k { s with buf := b } t := by
  obtain ⟨tf, h1, h2, h3, h4, h5⟩ := h
  exact ⟨tf, h1.draw hT hdb hop e, h2, h3, h4, h5⟩

/-- Output that changes nothing. -/
theorem InView.mute {u : UEnv} {env : WEnv} {m k : Bool} {s : Scr} {t : Term}
    (h : InView u env m k s t) {w : WS} (hw : Mute env s.w w) :
    InView u env m k { s with w := w } t := by
  obtain ⟨tf, h1, h2, h3, h4, h5⟩ := h
  exact ⟨tf, h1.mute hw, h2, h3, hw.os h4, h5⟩

/-- Refreshing. -/
theorem InView.refresh {u : UEnv} (hT : TableOk u) {env : WEnv} (hg : GoodDB env) (hdb : DrawDB env)
    {m k : Bool} {s s' : Scr} {t : Term} (h : InView u env m k s t)
    (hst : m = true → NothingStale u s.toSData) (e : s.refresh u env = .ok s') :
    ∃ new, s'.w.log = s.w.log ++ new ∧ ∀ t', t.Reacts u new t' →
      InView u env m k s' t' ∧ (k = true → After u (fun _ => False) s' t') := by
  obtain ⟨tf, h1, h2, h3, h4, h5⟩ := h
  obtain ⟨new, tf', l1, p1, c1, a1⟩ := h1.refresh hT hdb hst e
  refine ⟨new, l1, fun t' hr => ?_⟩
  have hk : k = true → t' = tf' := by
    intro hk
    obtain ⟨hz, hc⟩ := h5 hk
    cases hcl : s.clear with
    | false =>
      rw [hc hcl] at hr
      exact reacts_play p1 hr
    | true =>
      have hgr := h1.held.grid
      have hi : s.buf.Inv := ⟨hgr.size, hgr.len, hgr.backLen, hgr.text⟩
      obtain ⟨js, -, -, hcs⟩ := refresh_sent hi e
      obtain ⟨n2, l2⟩ := hcs hcl
      have : new = .cap .clearScreen [] :: n2 := List.append_cancel_left (l1.symm.trans l2)
      subst this
      simp only [Term.play, Option.bind_eq_some_iff] at p1
      obtain ⟨tf1, p2, p3⟩ := p1
      cases hr with
      | cons m r =>
        rename_i t1
        have e1 : t.step u (.cap .clearScreen []) = some tf1 := by
          rw [← p2]
          simp only [Term.step]
          rw [h2, h3, hz]
        have := m.1 tf1 (react_of_step e1)
        subst this
        exact reacts_play p3 r
  have hkept := reacts_kept hr
  have hkf := play_kept p1
  refine ⟨⟨tf', c1, ?_, ?_, (noErrS_refresh hg hdb s h4).ok e, fun h => ?_⟩, fun h => ?_⟩
  · rw [hkept.2.1, hkf.2.1, h2]
  · rw [hkept.2.2, hkf.2.2, h3]
  · rw [hk h]; exact ⟨rfl, fun _ => rfl⟩
  · rw [hk h]; exact a1

/-- `set_cursor_mode` on a guard. -/
theorem InView.onMute {u : UEnv} {env : WEnv} {m k : Bool} {s s' : Scr} {t : Term}
    (h : InView u env m k s t) {f : WS → Outcome WS} (hf : ∀ w, MuteOut env w (f w))
    (e : s.onW f = .ok s') :
    ∃ new, s'.w.log = s.w.log ++ new ∧ ∀ t', t.Reacts u new t' → InView u env m k s' t' := by
  obtain ⟨e1, e2⟩ := onW_inv e
  have hm := hf s.w s'.w (by rw [e1]; rfl)
  obtain ⟨new, l, hs⟩ := hm.log
  refine ⟨new, l, fun t' hr => ?_⟩
  rw [silent_reacts hs hr]
  have := h.mute hm
  have hs' : s' = { s with w := s'.w } := by
    cases s'; cases s
    dsimp only at e2 ⊢
    cases e2; rfl
  rw [hs']; exact this

theorem reacts_exists (u : UEnv) : ∀ (os : List Out) (t : Term), ∃ t', t.Reacts u os t'
  | [], t => ⟨t, .nil t⟩
  | o :: os, t => by
    cases hr : t.react u o with
    | some t1 =>
      obtain ⟨t', h⟩ := reacts_exists u os t1
      refine ⟨t', .cons ⟨fun t2 h2 => ?_, fun h2 => ?_⟩ h⟩
      · rw [hr] at h2; exact Option.some.inj h2
      · rw [hr] at h2; cases h2
    | none =>
      obtain ⟨t1, hm⟩ : ∃ t1, t.May u o t1 :=
        ⟨{ t with attrs := devStep t.attrs o }, ⟨fun t2 h2 => (by rw [hr] at h2; cases h2),
          fun _ => ⟨rfl, rfl, rfl⟩⟩⟩
      obtain ⟨t', h⟩ := reacts_exists u os t1
      exact ⟨t', .cons hm h⟩

/-- What a guard leaves behind when it is dropped. -/
structure Dropped (u : UEnv) (env : WEnv) (m k : Bool) (ops : List BufOp) (b : Buf) (s s' : Scr)
    (t : Term) : Prop where
  out : ∃ new, s'.w.log = s.w.log ++ new ∧ ∀ t', t.Reacts u new t' →
    InView u env m k s' t' ∧ (k = true → After u (fun _ => False) s' t')
  pending : s'.w.pending = []
  content : ∃ b', runOps u ops b = some b' ∧ s'.buf = b'.wb s'.buf.back

/-- The condition on a guard's calls. -/
def GuardOk (u : UEnv) (env : WEnv) (ops : List GOp) (s : Scr) : Bool → Prop
  | false => ∀ op, .draw op ∈ ops → NarrowDraw u op
  | true => WideGuard u env ops s

theorem GuardOk.next {u : UEnv} {env : WEnv} {op : GOp} {ops : List GOp} {s s' : Scr} :
    ∀ {m : Bool}, GuardOk u env (op :: ops) s m → op.run u env s = .ok s' → GuardOk u env ops s' m
  | false, h, _ => fun o ho => h o (List.mem_cons_of_mem _ ho)
  | true, h, e => h.2 s' e

theorem GuardOk.draw {u : UEnv} {env : WEnv} {op : BufOp} {ops : List GOp} {s : Scr} :
    ∀ {m : Bool}, GuardOk u env (.draw op :: ops) s m → DrawOk u s.buf op m
  | false, h => h op List.mem_cons_self
  | true, h => h.1

/-- A guard held for some calls. -/
theorem InView.guard {u : UEnv} (hT : TableOk u) {env : WEnv} (hg : GoodDB env) (hdb : DrawDB env)
    {m k : Bool} : ∀ {ops : List GOp} {s s' : Scr} {t : Term} {b : Buf}, InView u env m k s t →
    s.buf = b.wb s.buf.back →
    GuardOk u env ops s m → guardSession u env ops s = .ok s' →
    Dropped u env m k (ops.filterMap GOp.asked) b s s' t := by
  intro ops
  induction ops with
  | nil =>
    intro s s' t b h hb hn e
    have h4 : OsOk s.w := by obtain ⟨_, _, _, _, h4, _⟩ := h; exact h4
    change guardDrop u env s = .ok s' at e
    cases hr : s.refresh u env with
    | stop x => unfold guardDrop at e; rw [hr] at e; cases e
    | err x s1 => exact ((noErrS_refresh hg hdb s h4).err hr).elim
    | ok s1 =>
      obtain ⟨e1, e2⟩ := C56_drop u env s s1 hr
      rw [e1] at e; cases e
      have hk := keeps_refresh u env s s' (by rw [hr]; rfl)
      exact ⟨h.refresh hT hg hdb (by rintro rfl; exact hn) hr, e2, b, rfl, by rw [hk, hb]; rfl⟩
  | cons op ops ih =>
    intro s s' t b h hb hn e
    have h4 : OsOk s.w := by obtain ⟨_, _, _, _, h4, _⟩ := h; exact h4
    rw [guardSession] at e
    -- one call, then the rest
    have seq : ∀ (s1 : Scr) (b1 : Buf), GuardOk u env ops s1 m → guardSession u env ops s1 = .ok s' →
        s1.buf = b1.wb s1.buf.back →
        (∃ new, s1.w.log = s.w.log ++ new ∧ ∀ t', t.Reacts u new t' → InView u env m k s1 t') →
        Dropped u env m k (ops.filterMap GOp.asked) b1 s s' t := by
      rintro s1 b1 hn' e hb1 ⟨n1, l1, v1⟩
      obtain ⟨t1, ht1⟩ := reacts_exists u n1 t
      obtain ⟨⟨n2, l2, -⟩, hp, hc⟩ := ih (v1 t1 ht1) hb1 hn' e
      refine ⟨⟨n1 ++ n2, by rw [l2, l1, List.append_assoc], fun t' hr => ?_⟩, hp, hc⟩
      obtain ⟨t2, r1, r2⟩ := reacts_append hr
      obtain ⟨⟨n2', l2', v2⟩, -, -⟩ := ih (v1 t2 r1) hb1 hn' e
      have : n2' = n2 := List.append_cancel_left (l2'.symm.trans l2)
      subst this
      exact v2 t' r2
    cases op with
    | draw o =>
      have ho := hn.draw
      change (match (match o.run u s.buf with
        | none => Outcome.stop .panic
        | some b => .ok { s with buf := b }) with
        | .ok s' => guardSession u env ops s'
        | .err _ s' => guardSession u env ops s'
        | .stop h => .stop h) = Outcome.ok s' at e
      cases hr : o.run u s.buf with
      | none => rw [hr] at e; cases e
      | some b2 =>
        rw [hr] at e
        dsimp only at e
        have hr0 := hr
        rw [hb, op_wb u _ o ho.noResize] at hr
        cases hb1 : o.run u b with
        | none => rw [hb1] at hr; cases hr
        | some b1 =>
          rw [hb1] at hr
          cases hr
          have := seq _ b1 (hn.next (by show (match o.run u s.buf with | none => _ | some b => _) = _; rw [hr0])) e rfl ⟨[], by simp, fun t' r => by
            cases r; exact h.draw hT hdb ho hr0⟩
          obtain ⟨d1, d2, b', d3, d4⟩ := this
          refine ⟨d1, d2, b', ?_, d4⟩
          show (o.run u b).bind _ = _
          rw [hb1]; exact d3
    | refresh =>
      change (match s.refresh u env with
        | .ok s' => guardSession u env ops s'
        | .err _ s' => guardSession u env ops s'
        | .stop h => .stop h) = Outcome.ok s' at e
      cases hr : s.refresh u env with
      | stop x => rw [hr] at e; cases e
      | err x s1 => exact ((noErrS_refresh hg hdb s h4).err hr).elim
      | ok s1 =>
        rw [hr] at e
        have hk := keeps_refresh u env s s1 (by rw [hr]; rfl)
        obtain ⟨new, l, v⟩ := h.refresh hT hg hdb (by rintro rfl; exact hn.1) hr
        exact seq s1 b (hn.next hr) e (by rw [hk, hb]; rfl) ⟨new, l, fun t' r => (v t' r).1⟩
    | setCursorMode cm =>
      change (match s.onW (Mortal.setCursorMode env cm) with
        | .ok s' => guardSession u env ops s'
        | .err _ s' => guardSession u env ops s'
        | .stop h => .stop h) = Outcome.ok s' at e
      cases hr : s.onW (Mortal.setCursorMode env cm) with
      | stop x => rw [hr] at e; cases e
      | err x s1 => exact ((NoErrS.onW (noErr_setCursorMode hg cm s.w h4)).err hr).elim
      | ok s1 =>
        rw [hr] at e
        have hk := (onW_inv hr).2
        have hbuf : s1.buf = s.buf := congrArg SData.buf hk
        exact seq s1 b (hn.next hr) e (by rw [hbuf, ← hb]) (h.onMute (quiet_setCursorMode hg cm) hr)

end Mortal
