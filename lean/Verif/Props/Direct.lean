import Verif.Lemmas.Direct
import Verif.Props.Writer

/-!
# Output written directly to a Unix terminal (C57)
-/

namespace Mortal
open Spec

theorem direct_run {env : WEnv} (hdb : DirectDB env) (u : UEnv) (crlf : Bool)
    (fill : DevAttrs → DevAttrs) :
    ∀ (ops : List TOp) (w w' : WS) (e : Emu) (p p2 p' : Page) (tr : List (TOp × Bool)),
    p.grid.size.lines ≤ 2 ^ 32 → p.grid.size.columns ≤ 2 ^ 32 → p.grid.Sound → p.Below p2 →
    OnPage fill w e p2 → traceT env ops w = some (tr, w') → p.run u crlf tr = some p' →
    ∃ p2', p'.Below p2' ∧ Reaches u crlf fill w e w' p2' := by
  intro ops
  induction ops with
  | nil =>
    intro w w' e p p2 p' tr _ _ _ hb h ht hp
    simp only [traceT, Option.some.injEq, Prod.mk.injEq] at ht
    obtain ⟨rfl, rfl⟩ := ht
    cases hp
    exact ⟨p2, hb, h.same rfl rfl⟩
  | cons op ops ih =>
    intro w w' e p p2 p' tr hl hc hs hb h ht hp
    have hstep := step_direct (u := u) (crlf := crlf) hdb (by rw [← hb.size]; exact hl)
      (by rw [← hb.size]; exact hc) (by rw [← hb.size, ← hb.cur]; exact hs.cur) h op
    have join : ∀ {w1 w2 : WS} {p1 : Page}, Reaches u crlf fill w e w1 p1 →
        (∀ e1, OnPage fill w1 e1 p1 → ∃ p2', p'.Below p2' ∧ Reaches u crlf fill w1 e1 w2 p2') →
        ∃ p2', p'.Below p2' ∧ Reaches u crlf fill w e w2 p2' := by
      rintro w1 w2 p1 ⟨n1, e1, a1, a2, a3⟩ h2
      obtain ⟨p2', b1, n2, e2, c1, c2, c3⟩ := h2 e1 a3
      exact ⟨p2', b1, n1 ++ n2, e2, by rw [c1, a1, List.append_assoc],
        by rw [emu_append, a2]; exact c2, c3⟩
    simp only [traceT] at ht
    cases ho : op.unix.run env w with
    | stop x => rw [ho] at ht; cases ht
    | ok w1 =>
      rw [ho] at ht hstep
      simp only [Option.map_eq_some_iff, Prod.mk.injEq] at ht
      obtain ⟨⟨tr1, w2⟩, h1, rfl, rfl⟩ := ht
      simp only [Page.run, Option.bind_eq_some_iff] at hp
      obtain ⟨p1, hp1, hp2⟩ := hp
      obtain ⟨k1, k2⟩ := hs.after hp1
      obtain ⟨p21, hp21, hb1⟩ := hb.after hp1
      exact join (hstep p21 hp21) fun e1 h2 =>
        ih w1 w2 e1 p1 p21 p' tr1 (by rw [k2]; exact hl) (by rw [k2]; exact hc) k1 hb1 h2 h1 hp2
    | err x w1 =>
      rw [ho] at ht hstep
      simp only [Option.map_eq_some_iff, Prod.mk.injEq] at ht
      obtain ⟨⟨tr1, w2⟩, h1, rfl, rfl⟩ := ht
      simp only [Page.run] at hp
      obtain ⟨k1, k2⟩ := hs.failed op
      exact join hstep fun e1 h2 =>
        ih w1 w2 e1 _ _ p' tr1 (by rw [k2]; exact hl) (by rw [k2]; exact hc) k1 (hb.failed op) h2 h1 hp

/-- C57. A program makes any calls on a Unix terminal that supports all attributes and can hide the
cursor, and whose screen is at most 2³² lines high and columns wide; some of the calls may fail. If
the terminal first shows `p` then, interpreting what was handed over for output by the meaning
terminfo(5) gives to it, it shows in the end the page the calls asked for: characters in their
themes, erased cells, the cursor and whether it is visible. -/
theorem C57_shown (env : WEnv) (hdb : DirectDB env) (u : UEnv) (crlf : Bool)
    (fill : DevAttrs → DevAttrs) (ops : List TOp) (os : List WriteRes) (e : Emu) (p p' : Page)
    (tr : List (TOp × Bool)) (s : WS)
    (hl : p.grid.size.lines ≤ 2 ^ 32) (hc : p.grid.size.columns ≤ 2 ^ 32)
    (hfresh : p.Fresh) (hshow : e.Shows fill p)
    (hrun : traceT env ops (WS.new os) = some (tr, s)) (hpage : p.run u crlf tr = some p') :
    ∃ e', e.play u crlf fill s.log = some e' ∧ e'.Shows fill p' := by
  obtain ⟨p2, hb, hx⟩ := hshow.above
  obtain ⟨p2', hb', new, e', h1, h2, h3⟩ := direct_run hdb u crlf fill ops (WS.new os) s e p p2 p' tr
    hl hc hfresh.2 hb
    ⟨show devAttrs [] = view plainTheme by decide, hx, by rw [← hb.attrs]; exact hfresh.1⟩ hrun hpage
  refine ⟨e', ?_, hb'.shows h3.shows⟩
  have : s.log = new := by rw [h1]; rfl
  rw [this]
  exact h2

theorem traceT_runW (env : WEnv) : ∀ (ops : List TOp) (w w' : WS) (tr : List (TOp × Bool)),
    traceT env ops w = some (tr, w') → runW env (ops.map TOp.unix) w = some w' := by
  intro ops
  induction ops with
  | nil =>
    intro w w' tr h
    simp only [traceT, Option.some.injEq, Prod.mk.injEq] at h
    rw [← h.2]; rfl
  | cons op ops ih =>
    intro w w' tr h
    simp only [traceT] at h
    simp only [List.map_cons, runW]
    cases ho : op.unix.run env w with
    | stop x => rw [ho] at h; cases h
    | ok w1 =>
      rw [ho] at h
      simp only [Option.map_eq_some_iff, Prod.mk.injEq] at h
      obtain ⟨⟨tr1, w2⟩, h1, -, rfl⟩ := h
      exact ih _ _ _ h1
    | err x w1 =>
      rw [ho] at h
      simp only [Option.map_eq_some_iff, Prod.mk.injEq] at h
      obtain ⟨⟨tr1, w2⟩, h1, -, rfl⟩ := h
      exact ih _ _ _ h1

/-- C57. If the operating system never takes only a part of what it is given, and a flush after these
calls succeeds, then the terminal has received exactly the bytes of what was handed over. -/
theorem C57_received (env : WEnv) (ops : List TOp) (os : List WriteRes) (tr : List (TOp × Bool))
    (s s' : WS) (hos : NoShortWrites os) (hrun : traceT env ops (WS.new os) = some (tr, s))
    (hflush : flush s = .ok s') : s'.dev = logBytes env s.log ∧ s'.log = s.log := by
  have h1 := inv_runW (delivered_inv env) (ops.map TOp.unix) (WS.new os) s ⟨hos, rfl⟩
    (traceT_runW env ops _ _ _ hrun)
  have h2 := flush_whole s h1.1
  rw [hflush] at h2
  exact ⟨by rw [h2.2.1]; exact h1.2, h2.2.2.2.1⟩

/-! ### Examples -/

/-- The demonstration database has everything. -/
example : DirectDB demoDB :=
  ⟨fun _ _ => ⟨_, rfl, fun _ => rfl⟩, ⟨_, rfl⟩, ⟨_, rfl⟩, fun _ _ h _ => by cases h; rfl⟩

/-- An empty page of 3 by 6. -/
def blankPage : Page :=
  ⟨⟨⟨3, 6⟩, fun _ => .narrow [' '] ⟨plainTheme, .erased⟩, some ⟨0, 0⟩, none, { theme := plainTheme }, false⟩,
    true⟩

/-- An empty terminal of this size shows it, and it is fresh. -/
example : (⟨⟨⟨3, 6⟩, fun _ => .narrow [' '] (view plainTheme), some ⟨0, 0⟩, none, view plainTheme,
    false⟩, true⟩ : Emu).Shows id blankPage ∧ blankPage.Fresh :=
  ⟨⟨rfl, fun _ => rfl, rfl, by rintro c ⟨⟩, rfl, rfl⟩, rfl, ⟨by decide, by rintro c ⟨⟩; decide,
    by rintro c ⟨⟩, by rintro l c ⟨⟩, by rintro l c x d ⟨⟩⟩⟩

/-- A two-column character in red, a styled character, erasing the rest of a line in blue, far and
absolute moves, line feeds that scroll, and a hidden cursor. -/
def pageCalls : List TOp :=
  [.fg (some .red), .moveTo ⟨1, 0⟩, .write ['世', 'a'], .styled ⟨none, none, .BOLD⟩ ['b'],
   .move .right (2 ^ 40), .move .left 1, .bg (some .blue), .clearToLineEnd, .clearAttributes, .flush,
   .write ['\n', '\n', 'c'], .firstColumn, .write ['d'], .cursorMode .invisible, .flush]

/-- What the calls return when the operating system first fails and then is interrupted. -/
def pageTrace : Option (List (TOp × Bool) × WS) :=
  traceT demoDB pageCalls (WS.new [.fail, .eintr, .all])

/-- Only the first flush has failed. -/
example : pageTrace.map (fun x => x.1.filterMap fun y => if y.2 then none else some y.1) =
    some [.flush] := by decide +kernel

/-- The page asked for: the middle line has become the first. -/
example : (pageTrace.bind fun x => blankPage.run demoEnv true x.1).map (fun p =>
      (p.visible, p.grid.cur, (List.range 6).map fun i => p.grid.cell ⟨0, i⟩)) =
    some (false, some ⟨2, 1⟩,
      [.left ['世'] ⟨⟨some .red, none, 0⟩, .written⟩, .right, .narrow ['a'] ⟨⟨some .red, none, 0⟩, .written⟩,
       .narrow ['b'] ⟨⟨none, none, .BOLD⟩, .written⟩, .narrow [' '] ⟨⟨none, some .blue, 0⟩, .erased⟩,
       .narrow [' '] ⟨⟨none, some .blue, 0⟩, .erased⟩]) := by decide +kernel

/-- Its last line. -/
example : (pageTrace.bind fun x => blankPage.run demoEnv true x.1).map (fun p =>
      (List.range 3).map fun i => p.grid.cell ⟨2, i⟩) =
    some [.narrow ['d'] ⟨plainTheme, .written⟩, .narrow [' '] ⟨plainTheme, .scrolled⟩,
      .narrow [' '] ⟨plainTheme, .scrolled⟩] := by decide +kernel

end Mortal
