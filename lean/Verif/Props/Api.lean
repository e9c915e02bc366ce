import Verif.Lemmas.Api
import Verif.Props.DirectWin
import Verif.Props.TextRef

/-!
# The public methods do what they are documented to do (C63)
-/

namespace Mortal
open Spec

/-- **C63.** A program calls methods of `Terminal`, and of write guards, in any order, on a Unix terminal as
in C57; some of the calls may fail. Interpreting all that was handed over for output by the meaning
terminfo(5) gives to it, the terminal shows the page the methods asked for. -/
theorem C63_shown (env : WEnv) (hdb : DirectDB env) (u : UEnv) (crlf : Bool)
    (fill : DevAttrs → DevAttrs) (acts : List PAct) (os : List WriteRes) (e : Emu) (p p' : Page)
    (l : List (PubOp × Bool)) (s : WS)
    (hl : p.grid.size.lines ≤ 2 ^ 32) (hc : p.grid.size.columns ≤ 2 ^ 32)
    (hfresh : p.Fresh) (hshow : e.Shows fill p)
    (hrun : runPubUnix env acts (WS.new os) = some (l, s)) (hpage : p.runPub u crlf l = some p') :
    ∃ e', e.play u crlf fill s.log = some e' ∧ e'.Shows fill p' := by
  obtain ⟨ts, tr, h1, h2, -⟩ := runPub_trace env acts _ _ _ hrun
  obtain ⟨p2', h3, h4⟩ := h2.page ⟨rfl, .inl rfl⟩ hpage
  obtain ⟨e', h5, h6⟩ := C57_shown env hdb u crlf fill ts os e p p2' tr s hl hc hfresh hshow h1 h3
  exact ⟨e', h5, h4.shown h6⟩

/-- **C63**: and the terminal has received all of it, whenever no guard is held: if the operating system
takes what it is given (after interruptions perhaps), the device has got exactly what was handed over. -/
theorem C63_delivered (env : WEnv) (acts : List PAct) (os : List WriteRes) (l : List (PubOp × Bool))
    (s : WS) (hos : TakesAll os) (hrun : runPubUnix env acts (WS.new os) = some (l, s)) :
    s.pending = [] ∧ s.dev = logBytes env s.log := by
  obtain ⟨ts, tr, h1, -, h2⟩ := runPub_trace env acts _ _ _ hrun
  have hr := traceT_runW env ts _ _ _ h1
  have hd := inv_runW (delivered_inv env) (ts.map TOp.unix) (WS.new os) s ⟨takes_short hos, rfl⟩ hr
  have hp : s.pending = [] := by
    rcases h2 with rfl | ⟨ts', rfl⟩
    · simp only [traceT, Option.some.injEq, Prod.mk.injEq] at h1
      rw [← h1.2]; rfl
    · rw [List.map_append, runW_app] at hr
      obtain ⟨s1, h3, h4⟩ := Option.bind_eq_some_iff.mp hr
      have ht := inv_runW (takes_inv env) (ts'.map TOp.unix) (WS.new os) s1 hos h3
      obtain ⟨s2, h5, h7⟩ := Option.bind_eq_some_iff.mp h4
      cases h7
      cases h6 : WOp.run env .sessionEnd s1 with
      | ok x =>
        have h8 : (WOp.run env .sessionEnd s1).state = some s := h5
        rw [h6] at h8; cases h8
        exact release_empties ht h6
      | err x y => exact absurd h6 (sessionEnd_not_err env s1 y x)
      | stop w =>
        have h8 : (WOp.run env .sessionEnd s1).state = some s := h5
        rw [h6] at h8; cases h8
  refine ⟨hp, ?_⟩
  have := hd.2
  rwa [hp, List.append_nil] at this

/-- **C63** on Windows: a console as in C58. Calls that move, show or hide the cursor may fail. -/
theorem C63_win_shown (u : UEnv) (hsp : u.w ' ' = 1) (k : Nat) (t : WTerm) (acts : List PAct)
    (s s' : WinSt) (c : Con) (o : OutBuf) (p p' : Page) (l : List (PubOp × Bool)) (D : List WEv)
    (ho : c.outs s.outH = some o) (hz : BufSize o.glyph.size) (hw : o.Whole)
    (hmode : o.mode.getLsbD 0 = true) (hplain : s.theme = plainTheme)
    (hfresh : p.Fresh) (hshow : o.Presents t p)
    (hrun : runPubWin t acts s = some (l, s')) (hok : ∀ op, (op, false) ∈ l → (PubOp.asks op).IsCursor)
    (hlog : s'.log = s.log ++ D) (hcon : c.Runs u k D)
    (hpage : p.runPub u (!o.mode.getLsbD 3) l = some p') :
    ∃ c' o', c.play u k D = some c' ∧ OnlyBuffer s.outH c c' o o' ∧ o'.Presents t p' := by
  obtain ⟨ts, tr, h1, h2, hf, hr⟩ := runPubWin_trace t acts _ _ _ hrun
  obtain ⟨p2', h3, h4⟩ := h2.page ⟨rfl, .inl rfl⟩ hpage
  obtain ⟨c', o', h5, h6, h7⟩ := C58_shown u hsp k t ts s s' c o p p2' tr D ho hz hw hmode hplain hfresh
    hshow h1 (fun op hm => by
      rcases h2.failed hm with ⟨o', h, rfl⟩ | rfl | rfl
      · exact hok o' h
      · exact absurd (hf _ hm) nofun
      · exact absurd hm (hr _)) hlog hcon h3
  exact ⟨c', o', h5, h6, h4.presents h7⟩

/-- **C63**: a program whose methods return the same on both platforms leaves the same characters in the
same cells, and the cursor in the same place. -/
theorem C63_same (env : WEnv) (hdb : DirectDB env) (u : UEnv) (hsp : u.w ' ' = 1)
    (fill : DevAttrs → DevAttrs) (k : Nat) (t : WTerm) (acts : List PAct) (l : List (PubOp × Bool))
    (p p' : Page) (hfresh : p.Fresh)
    -- Unix
    (os : List WriteRes) (e : Emu) (w : WS) (hunix : e.Shows fill p)
    (hu : runPubUnix env acts (WS.new os) = some (l, w))
    -- Windows
    (s s' : WinSt) (c : Con) (o : OutBuf) (D : List WEv)
    (ho : c.outs s.outH = some o) (hz : BufSize o.glyph.size) (hw : o.Whole)
    (hmode : o.mode.getLsbD 0 = true) (hplain : s.theme = plainTheme) (hwin : o.Presents t p)
    (hrun : runPubWin t acts s = some (l, s')) (hok : ∀ op, (op, false) ∈ l → (PubOp.asks op).IsCursor)
    (hlog : s'.log = s.log ++ D) (hcon : c.Runs u k D)
    (hpage : p.runPub u (!o.mode.getLsbD 3) l = some p') :
    ∃ e' c' o', e.play u (!o.mode.getLsbD 3) fill w.log = some e' ∧ c.play u k D = some c' ∧
      OnlyBuffer s.outH c c' o o' ∧ e'.t.size = o'.glyph.size ∧
      (∀ q, InBounds q o'.glyph.size → (e'.t.cell q).map (fun _ => ()) = o'.glyph.cell q) ∧
      (∀ x, e'.t.cur = some x → o'.glyph.cur = some x) ∧ e'.visible = o'.shape.2 := by
  obtain ⟨z1, z2, z3, z4⟩ := id hz
  rw [hwin.size] at z1 z2 z3 z4
  obtain ⟨e', e1, e2, e3, e4, -, -, e5⟩ := C63_shown env hdb u _ fill acts os e p p' l w (by omega)
    (by omega) hfresh hunix hu hpage
  obtain ⟨c', o', c1, c2, c3⟩ := C63_win_shown u hsp k t acts s s' c o p p' l D ho hz hw hmode hplain
    hfresh hwin hrun hok hlog hcon hpage
  refine ⟨e', c', o', e1, c1, c2, e2.trans c3.size.symm, fun q hq => ?_, fun x hx => ?_,
    e5.trans c3.visible.symm⟩
  · rw [c3.cell q (by rw [← c3.size]; exact hq), e3, tcell_map_map]
  · exact c3.cur x (by rw [← e4]; exact hx)

/-- **C63** for screens: each method, of `Screen` or of its write guard, draws what it asks for. -/
theorem C63_screen (env : UEnv) (b : Buf) (x : SPub) :
    x.onScreen.run env b = (SPub.asks x).run env b ∧ x.onGuard.run env b = (SPub.asks x).run env b := by
  have one : ∀ ch, (b.writeChar env ch).map (·.1) = (b.writeStr env [ch]).map (·.1) := by
    intro ch
    simp only [Buf.writeStr]
    cases h : b.writeChar env ch with
    | none => rfl
    | some y =>
      obtain ⟨b', r⟩ := y
      cases r <;> rfl
  cases x with
  | setStyle st => cases st <;> exact ⟨rfl, rfl⟩
  | writeStyled fg bg st x => cases st <;> exact ⟨rfl, rfl⟩
  | writeStyledAt q fg bg st x => cases st <;> exact ⟨rfl, rfl⟩
  | writeChar ch => exact ⟨one ch, one ch⟩
  | _ => exact ⟨rfl, rfl⟩

/-- **C62** for the public methods: any of them, each through the screen (`true`) or through a guard, leave
the screen with the picture they ask for. Partial as `C62_page_partial` is. -/
theorem C62_methods_partial (env : UEnv) (henv : SpaceOk env) (z : Size) (hz : GoodSize z)
    (xs : List (SPub × Bool)) (ht : (Pic.fresh z).TameRun env (xs.map fun x => SPub.asks x.1)) :
    (runOps env (xs.map fun x => if x.2 then x.1.onScreen else x.1.onGuard) (Buf.new z)).map picOf =
      Pic.drawAll env (xs.map fun x => SPub.asks x.1) (Pic.fresh z) := by
  rw [← C62_page_partial env henv z hz _ ht]
  clear ht
  congr 1
  generalize Buf.new z = b
  induction xs generalizing b with
  | nil => rfl
  | cons x xs ih =>
    obtain ⟨x, g⟩ := x
    have h : (if g then x.onScreen else x.onGuard).run env b = (SPub.asks x).run env b := by
      cases g
      · exact (C63_screen env b x).2
      · exact (C63_screen env b x).1
    simp only [List.map_cons, runOps, h]
    cases (SPub.asks x).run env b with
    | none => rfl
    | some b' => exact ih b'

/-- **C63**: why `C63_delivered` asks that the operating system takes the output. A guard is dropped at the
end of each method and the drop ignores errors (`src/unix/terminal.rs:1049-1055`): the write fails,
nothing arrives, and `write_str` returns `Ok`. -/
theorem C63_error_ignored : ∃ s, PubOp.callUnix demoDB (WS.new [.fail]) (.writeStr ['a']) = some (none, s) ∧
    s.dev = [] ∧ s.pending = [97] := by
  have h : (PubOp.callUnix demoDB (WS.new [.fail]) (.writeStr ['a'])).map
      (fun x => (x.1, x.2.dev, x.2.pending)) = some (none, [], [97]) := by decide +kernel
  obtain ⟨⟨r, s⟩, h1, h2⟩ := Option.map_eq_some_iff.mp h
  simp only [Prod.mk.injEq] at h2
  obtain ⟨rfl, h2, h3⟩ := h2
  exact ⟨s, h1, h2, h3⟩

/-! ### Examples -/

/-- Methods of `Terminal`, a move by nothing, and a guard. -/
def pubActs : List PAct :=
  [.call .bold, .call (.moveRight 0), .call (.writeChar '世'),
   .guard [some (.setStyle none), some (.writeStyled (some .red) none (some .UNDERLINE) ['b']), none,
     some (.writeFmt ['x', '1'])],
   .call (.setCursorMode .invisible), .call .italic]

/-- They succeed on Unix; the page exists, and all has arrived. -/
example : TakesAll [.eintr, .all, .all, .eintr, .all, .all, .all, .all, .all] ∧
    ((runPubUnix demoDB pubActs (WS.new [.eintr, .all, .all, .eintr, .all, .all, .all, .all, .all])).map
      fun x => (x.1.all Prod.snd, x.2.pending, decide (x.2.dev = logBytes demoDB x.2.log), decide (x.2.dev = []))) =
      some (true, [], true, false) := by
  refine ⟨by unfold TakesAll; decide, by decide +kernel⟩

/-- The page: bold, then not; a word in red and underlined. -/
example : ((runPubUnix demoDB pubActs (WS.new (List.replicate 9 .all))).bind fun x =>
      blankPage.runPub demoEnv true x.1).map (fun p =>
        (p.visible, p.grid.cur, p.grid.attrs.theme.style, (List.range 4).map fun i => p.grid.cell ⟨0, i⟩)) =
    some (false, some ⟨0, 5⟩, .ITALIC,
      [.left ['世'] ⟨⟨none, none, .BOLD⟩, .written⟩, .right,
       .narrow ['b'] ⟨⟨some .red, none, .UNDERLINE⟩, .written⟩, .narrow ['x'] ⟨plainTheme, .written⟩]) := by
  decide +kernel

/-- The answers of a console to `pubActs`. -/
def pubAnswers : List ConStep :=
  [⟨[], .ok⟩, ⟨[], .wrote 1⟩, ⟨[], .ok⟩, ⟨[], .ok⟩, ⟨[], .wrote 1⟩, ⟨[], .ok⟩, ⟨[], .wrote 2⟩,
   ⟨[], .ok⟩, ⟨[], .ok⟩]

/-- They succeed there, too; this is a possible behaviour of the console; the page exists. -/
example : ((runPubWin demoTerm pubActs (demoSt pubAnswers)).map fun x => x.1.all Prod.snd) = some true ∧
    (((runPubWin demoTerm pubActs (demoSt pubAnswers)).bind fun x =>
      checkPlay demoEnv 1 x.2.log (textCon pageOut)).bind fun c => c.outs 2).isSome ∧
    ((runPubWin demoTerm pubActs (demoSt pubAnswers)).bind fun x =>
      blankPage.runPub demoEnv true x.1).isSome := by
  decide +kernel

end Mortal
