import Verif.Spec.Theme
import Verif.Props.WinAttr
import Verif.Props.Writer
import Verif.Props.BufferAttrs

/-! # C78: themes hold what was asked for last, and setting one is making those requests -/

namespace Mortal
open Spec

theorem lastAsked_step {α : Type} {asks : ThemeCall → α → Prop} {start v : α}
    {calls : List ThemeCall} {c : ThemeCall} (h : LastAsked asks start calls v)
    (hc : ∀ v', ¬ asks c v') : LastAsked asks start (calls ++ [c]) v := by
  rcases h with ⟨a, c', b, rfl, h1, h2⟩ | ⟨h1, h2⟩
  · refine .inl ⟨a, c', b ++ [c], by simp, h1, fun x hx => ?_⟩
    rcases List.mem_append.mp hx with hx | hx
    · exact h2 x hx
    · rw [List.mem_singleton.mp hx]; exact hc
  · refine .inr ⟨fun x hx => ?_, h2⟩
    rcases List.mem_append.mp hx with hx | hx
    · exact h1 x hx
    · rw [List.mem_singleton.mp hx]; exact hc

theorem lastAsked_here {α : Type} {asks : ThemeCall → α → Prop} {start v : α}
    {calls : List ThemeCall} {c : ThemeCall} (hc : asks c v) :
    LastAsked asks start (calls ++ [c]) v :=
  .inl ⟨calls, c, [], rfl, hc, fun _ h => absurd h List.not_mem_nil⟩

theorem chain_step (t : Theme) (calls : List ThemeCall) (c : ThemeCall) :
    t.chain (calls ++ [c]) = c.run (t.chain calls) := by
  simp [Theme.chain]

theorem no_bits (i : Nat) : (0#8 : Style).getLsbD i = false := by simp

/-- **C78.** A new theme holds what was asked for, and `Theme::default` and a style left out mean no
attributes. -/
theorem C78_started (start : ThemeStart) : start.Holds start.make := by
  cases start with
  | default => exact ⟨rfl, rfl, no_bits⟩
  | new f b s =>
    cases s with
    | none => exact ⟨rfl, rfl, no_bits⟩
    | some s => exact ⟨rfl, rfl, rfl⟩

/-- **C78.** Whatever builder methods are called on a theme, in any order and any number of times, it
holds the last foreground, the last background and the last style asked for. -/
theorem C78_built (t : Theme) (calls : List ThemeCall) :
    LastAsked AsksFg t.fg calls (t.chain calls).fg ∧
    LastAsked AsksBg t.bg calls (t.chain calls).bg ∧
    LastAsked AsksStyle t.style calls (t.chain calls).style := by
  obtain ⟨r, rfl⟩ : ∃ r : List ThemeCall, calls = r.reverse := ⟨calls.reverse, by simp⟩
  induction r with
  | nil => exact ⟨.inr ⟨nofun, rfl⟩, .inr ⟨nofun, rfl⟩, .inr ⟨nofun, rfl⟩⟩
  | cons c l ih =>
    obtain ⟨h1, h2, h3⟩ := ih
    rw [List.reverse_cons, chain_step]
    cases c with
    | fg v => exact ⟨lastAsked_here rfl, lastAsked_step h2 nofun, lastAsked_step h3 nofun⟩
    | bg v => exact ⟨lastAsked_step h1 nofun, lastAsked_here rfl, lastAsked_step h3 nofun⟩
    | style v =>
      refine ⟨lastAsked_step h1 nofun, lastAsked_step h2 nofun, lastAsked_here ?_⟩
      cases v with
      | none => exact .inr ⟨rfl, no_bits⟩
      | some v => exact .inl rfl

/-- **C78.** A theme started with `Theme::new` is one built from `Theme::default`, so the theorems below
are about it too. -/
theorem C78_new (f b : Option Color) (s : Option Style) (calls : List ThemeCall) :
    (Theme.new f b s).chain calls = Theme.default.chain ([.fg f, .bg b, .style s] ++ calls) := rfl

/-- **C78.** There is only one theme that holds the last values asked for. -/
theorem C78_unique (t t1 t2 : Theme) (calls : List ThemeCall)
    (h1 : LastAsked AsksFg t.fg calls t1.fg ∧ LastAsked AsksBg t.bg calls t1.bg ∧
      LastAsked AsksStyle t.style calls t1.style)
    (h2 : LastAsked AsksFg t.fg calls t2.fg ∧ LastAsked AsksBg t.bg calls t2.bg ∧
      LastAsked AsksStyle t.style calls t2.style) : t1 = t2 := by
  have one : ∀ {α : Type} {asks : ThemeCall → α → Prop} {start v w : α},
      (∀ c v w, asks c v → asks c w → v = w) → LastAsked asks start calls v →
      LastAsked asks start calls w → v = w := by
    intro α asks start v w hu hv hw
    rcases hv with ⟨a, c, b, e, p1, p2⟩ | ⟨p1, p2⟩
    · rcases hw with ⟨a', c', b', e', q1, q2⟩ | ⟨q1, -⟩
      · rw [e] at e'
        rcases List.append_eq_append_iff.mp e' with ⟨x, rfl, hx⟩ | ⟨x, rfl, hx⟩
        · cases x with
          | nil =>
            simp only [List.nil_append, List.cons.injEq] at hx
            exact hu c v w p1 (hx.1 ▸ q1)
          | cons y x =>
            simp only [List.cons_append, List.cons.injEq] at hx
            refine absurd q1 (p2 c' ?_ w)
            rw [hx.2]; simp
        · cases x with
          | nil =>
            simp only [List.nil_append, List.cons.injEq] at hx
            exact hu c v w p1 (hx.1 ▸ q1)
          | cons y x =>
            simp only [List.cons_append, List.cons.injEq] at hx
            refine absurd p1 (q2 c ?_ v)
            rw [hx.2]; simp
      · exact absurd p1 (q1 c (by rw [e]; simp) v)
    · rcases hw with ⟨a', c', b', e', q1, q2⟩ | ⟨q1, q2⟩
      · exact absurd q1 (p1 c' (by rw [e']; simp) w)
      · rw [p2, q2]
  have e1 : t1.fg = t2.fg := one (fun c v w a b => by rw [AsksFg] at a b; rw [a] at b; cases b; rfl)
    h1.1 h2.1
  have e2 : t1.bg = t2.bg := one (fun c v w a b => by rw [AsksBg] at a b; rw [a] at b; cases b; rfl)
    h1.2.1 h2.2.1
  have e3 : t1.style = t2.style := one (fun c v w a b => by
    rcases a with a | ⟨a, a'⟩ <;> rcases b with b | ⟨b, b'⟩
    · rw [a] at b; cases b; rfl
    · rw [a] at b; cases b
    · rw [a] at b; cases b
    · refine BitVec.eq_of_getLsbD_eq fun i _ => ?_
      rw [a' i, b' i]) h1.2.2 h2.2.2
  cases t1; cases t2; cases e1; cases e2; cases e3; rfl

/-- **C78.** Setting a theme built from `Theme::default` on a screen is clearing the attributes and
making the same requests to the screen, in the same order. -/
theorem C78_on_screen (env : UEnv) (b : Buf) (calls : List ThemeCall) :
    runOps env [.setTheme (Theme.default.chain calls)] b =
      runOps env (.clearAttributes :: calls.map ThemeCall.onScreen) b := by
  have main : ∀ (l : List ThemeCall) (t : Theme) (b : Buf),
      some (b.setTheme (t.chain l)) = runOps env (l.map ThemeCall.onScreen) (b.setTheme t) := by
    intro l
    induction l with
    | nil => intro t b; rfl
    | cons c l ih => intro t b; cases c <;> exact ih _ b
  exact main calls Theme.default b

/-- **C78.** Text written to a screen with a theme has the theme's colours and style. -/
theorem C78_cells (env : UEnv) (henv : SpaceOk env) (b b' : Buf) (t : Theme) (text : List Char)
    (h : runOps env [.setTheme t, .writeStr text] b = some b') :
    ∀ c old new, cellAt b c = some old → cellAt b' c = some new →
      CellChange env t.fg t.bg t.style text old new := by
  simp only [runOps, BufOp.run, Option.bind_some] at h
  cases e : (b.setTheme t).writeStr env text with
  | none => rw [e] at h; cases h
  | some x =>
    obtain ⟨b1, r⟩ := x
    rw [e] at h
    cases h
    intro c old new ho hn
    exact (C16_cells env henv (b.setTheme t) b1 text r e).2.2 c old new ho hn

/-- **C78.** The same on a Unix terminal that supports all attributes, after any history of calls: both
succeed and have the same attributes in effect on the terminal, those the theme holds. -/
theorem C78_on_unix (env : WEnv) (hfull : FullAttrs env) (ops : List WOp) (os : List WriteRes)
    (tr : List (WOp × Bool)) (s : WS) (h : traceW env ops (WS.new os) = some (tr, s))
    (calls : List ThemeCall) :
    ∃ s1 tr2 s2, WOp.run env (.setTheme (Theme.default.chain calls)) s = .ok s1 ∧
      traceW env (.clearAttributes :: calls.map ThemeCall.onUnix) s = some (tr2, s2) ∧
      (∀ op, (op, false) ∉ tr2) ∧
      devAttrs s1.log = view (Theme.default.chain calls) ∧
      devAttrs s2.log = view (Theme.default.chain calls) := by
  have hs := trace_follow env hfull ops (WS.new os) s plainTheme tr rfl rfl h
  obtain ⟨s1, e1⟩ := C21_calls_succeed env hfull (.setTheme (Theme.default.chain calls)) trivial
    ops os s tr h
  have p1 := C21_call env hfull (.setTheme (Theme.default.chain calls)) s _ hs.1 hs.2
  rw [e1] at p1
  have step : ∀ (op : WOp), IsAttrCall op → ∀ (s : WS) (t : Theme), s.theme = t →
      devAttrs s.log = view t → ∃ s', op.run env s = .ok s' ∧ s'.theme = want t (op, true) ∧
        devAttrs s'.log = view (want t (op, true)) := by
    intro op ha s t ht hd
    have := attrCall_post (F := FullAttrs env) (env := env) ha (t := t) ⟨ht, fun _ => hd⟩ true
    have p := C21_call env hfull op s t ht hd
    cases ho : op.run env s with
    | ok s' => rw [ho] at p; exact ⟨s', rfl, p⟩
    | err e s' => rw [ho] at this; exact absurd hfull this
    | stop w => rw [ho] at this; exact this.elim
  have main : ∀ (l : List ThemeCall) (t : Theme) (s : WS), s.theme = t → devAttrs s.log = view t →
      ∃ tr2 s2, traceW env (l.map ThemeCall.onUnix) s = some (tr2, s2) ∧ (∀ op, (op, false) ∉ tr2) ∧
        devAttrs s2.log = view (t.chain l) := by
    intro l
    induction l with
    | nil => intro t s ht hd; exact ⟨[], s, rfl, fun _ => List.not_mem_nil, hd⟩
    | cons c l ih =>
      intro t s ht hd
      obtain ⟨s', a1, a2, a3⟩ := step (ThemeCall.onUnix c) (by cases c <;> trivial) s t ht hd
      have hw : want t ((ThemeCall.onUnix c), true) = c.run t := by cases c <;> rfl
      rw [hw] at a2 a3
      obtain ⟨tr2, s2, b1, b2, b3⟩ := ih (c.run t) s' a2 a3
      refine ⟨((ThemeCall.onUnix c), true) :: tr2, s2, ?_, fun op hm => ?_, b3⟩
      · simp only [List.map_cons, traceW, a1, b1, Option.map_some]
      · rcases List.mem_cons.mp hm with hm | hm
        · cases hm
        · exact b2 op hm
  obtain ⟨s', a1, a2, a3⟩ := step .clearAttributes trivial s _ hs.1 hs.2
  obtain ⟨tr2, s2, b1, b2, b3⟩ := main calls Theme.default s' a2 a3
  refine ⟨s1, (.clearAttributes, true) :: tr2, s2, e1, ?_, fun op hm => ?_, p1.2, b3⟩
  · simp only [traceW, a1, b1, Option.map_some]
  · rcases List.mem_cons.mp hm with hm | hm
    · cases hm
    · exact b2 op hm

/-- **C78.** The same on a Windows terminal, whatever the console does in the meantime: after
`set_theme` that succeeds, and after clearing the attributes and making the same requests if they all
succeed, characters look as the theme asks for. -/
theorem C78_on_windows (u : UEnv) (k : Nat) (t : WTerm) (calls : List ThemeCall) (ops : List AttrOp)
    (hops : ops = [.theme (Theme.default.chain calls)] ∨ ops = .clear :: calls.map ThemeCall.onWin)
    (s s' : WinSt) (c : Con) (D : List WEv) (hi : InEffect t c s.outH s.theme)
    (h : runAttrs t ops s = .ok () s') (hl : s'.log = s.log ++ D) (hr : c.Runs u k D) :
    ∃ c', c.play u k D = some c' ∧ OnlyWord s.outH c c' ∧
      InEffect t c' s.outH (Theme.default.chain calls) := by
  obtain ⟨-, c', e1, e2, -, e3⟩ := C53_in_effect u k t ops s s' c D hi h hl hr
  refine ⟨c', e1, e2, (e3 _ ?_).2⟩
  rcases hops with rfl | rfl
  · exact .cons rfl (.nil _)
  · have main : ∀ (l : List ThemeCall) (t : Theme), Become t (l.map ThemeCall.onWin) (t.chain l) := by
      intro l
      induction l with
      | nil => intro t; exact .nil t
      | cons c l ih =>
        intro t
        refine .cons (b := c.run t) ?_ (ih _)
        cases c <;> exact ⟨rfl, rfl, rfl⟩
    exact .cons (b := Theme.default) ⟨rfl, rfl, no_bits⟩ (main calls Theme.default)

/-! ## Concrete cases -/

/-- A theme started with a style, whose foreground is asked for twice and whose style is dropped. -/
example : ((ThemeStart.new (some .red) none (some .BOLD)).make.chain
      [.fg (some .blue), .style none, .bg (some .black), .fg (some .green)]) =
    ⟨some .green, some .black, 0#8⟩ ∧
    LastAsked AsksFg (some .red)
      [.fg (some .blue), .style none, .bg (some .black), .fg (some .green)] (some .green) :=
  ⟨rfl, .inl ⟨[.fg (some .blue), .style none, .bg (some .black)], .fg (some .green), [], rfl, rfl,
    nofun⟩⟩

/-- On a screen: two of the three cells are written with the theme. -/
example : ∃ b', runOps demoEnv [.setTheme (Theme.default.chain [.fg (some .red), .style (some .BOLD)]),
      .writeStr ['a', 'b']] (Buf.new ⟨1, 3⟩) = some b' ∧
    b'.buffer = [⟨some .red, none, .BOLD, ['a']⟩, ⟨some .red, none, .BOLD, ['b']⟩,
      ⟨none, none, 0#8, [' ']⟩] := by
  refine ⟨_, rfl, by decide +kernel⟩

/-- On a Unix terminal in blue: the theme is bold red. -/
example : FullAttrs demoDB ∧ (traceW demoDB [.setFg (some .blue)] (WS.new [])).bind (fun x =>
      (WOp.run demoDB (.setTheme (Theme.default.chain [.fg (some .red), .style (some .BOLD)])) x.2).state.map
        fun s => devAttrs s.log) =
    some (view ⟨some .red, none, .BOLD⟩) :=
  ⟨fun _ _ => ⟨_, rfl, fun _ => rfl⟩, by decide +kernel⟩

/-- On a Windows terminal: both ways succeed. -/
example : ∃ s1 s2,
    runAttrs demoTerm [.theme (Theme.default.chain [.fg (some .red), .style (some .BOLD)])]
      (demoSt [{ ans := .ok }]) = .ok () s1 ∧
    runAttrs demoTerm (.clear :: [ThemeCall.fg (some .red), .style (some .BOLD)].map ThemeCall.onWin)
      (demoSt [{ ans := .ok }, { ans := .ok }]) = .ok () s2 ∧
    s1.theme = ⟨some .red, none, .BOLD⟩ ∧ s2.theme = s1.theme ∧
    InEffect demoTerm demoCon 2 (demoSt []).theme :=
  ⟨{ demoSt [] with theme := ⟨some .red, none, .BOLD⟩, log := [.call (.setAttr 2 12) .ok] },
    { demoSt [] with
      theme := ⟨some .red, none, .BOLD⟩
      log := [.call (.setAttr 2 4) .ok, .call (.setAttr 2 12) .ok] },
    by decide +kernel, by decide +kernel, rfl, rfl, ⟨demoOut, rfl, by decide +kernel⟩⟩

end Mortal
