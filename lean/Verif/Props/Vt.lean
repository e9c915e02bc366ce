import Verif.Lemmas.VtSane
import Verif.Props.Serial
import Verif.Props.Api

/-! # C68: what an xterm shows, from the bytes it receives -/

namespace Mortal
open Spec

/-- The entry for xterm has all a program that writes directly needs. -/
theorem xterm_direct : DirectDB xtermDB :=
  ⟨fun _ _ => ⟨_, rfl, fun _ => rfl⟩, ⟨_, rfl⟩, ⟨_, rfl⟩, fun _ _ h _ => by cases h; rfl⟩

/-- The terminal that understands terminfo, for one that shows a page. -/
def pageEmu (fill : DevAttrs → DevAttrs) (bce : Bool) (p : Page) : Emu where
  t := { size := p.grid.size, cell := fun q => (p.grid.cell q).map (Ink.unix fill), cur := p.grid.cur,
         last := p.grid.last, attrs := p.grid.attrs.unix fill, bce := bce }
  visible := p.visible

theorem pageEmu_shows (fill : DevAttrs → DevAttrs) (bce : Bool) (p : Page) : (pageEmu fill bce p).Shows fill p :=
  ⟨rfl, fun _ => rfl, rfl, fun _ h => h, rfl, rfl⟩

theorem pageEmu_refines {v : Vt} {p : Page} (hr : v.Ready) (h : v.Shows p) :
    Refines v.fill v (pageEmu v.fill v.t.bce p) where
  ready := hr
  size := h.size
  cell := fun q hq => by
    rcases h.cell q hq with e | ⟨e, e1, e2⟩
    · exact Or.inl e.symm
    · refine Or.inr ⟨?_, e1, e2⟩
      show (p.grid.cell q).map _ = _
      rw [e]; rfl
  cur := fun c hc => by
    obtain ⟨e1, e2⟩ := h.cur c hc
    exact ⟨by rw [← e1]; exact (ready_pos hr).1, e2⟩
  last := h.last
  attrs := h.attrs
  visible := h.visible
  fill := rfl

theorem shows_of_refines {fill : DevAttrs → DevAttrs} {v : Vt} {e : Emu} {p : Page} (h : Refines fill v e)
    (hs : e.Shows fill p) : v.Shows p := by
  obtain ⟨s1, s2, s3, s4, s5, s6⟩ := hs
  have hf := h.fill
  refine ⟨h.size.trans s1, fun q hq => ?_, fun c hc => ?_, fun c hc => h.last c (s4 c hc), ?_,
    h.visible.trans s6⟩
  · rw [hf, ← s2]
    rcases h.cell q hq with k | ⟨k1, k2, k3⟩
    · exact Or.inl k.symm
    · refine Or.inr ⟨?_, k2, k3⟩
      rw [s2] at k1
      cases e : p.grid.cell q <;> rw [e] at k1 <;> first | rfl | cases k1
  · rw [← s3] at hc
    exact ⟨(h.pos hc).1, (h.cur c hc).2⟩
  · rw [hf, h.attrs, s5]

/-- What was handed over, in bytes, on an xterm. -/
theorem fed_shows {u : UEnv} {crlf : Bool} {v : Vt} {p p' : Page} {log : List Out} (hr : v.Ready)
    (hm : v.FullMargins) (hs : v.Shows p) (hlog : ∀ o ∈ log, SaneOut o)
    (hp : ∀ fill : DevAttrs → DevAttrs, ∀ e : Emu, e.Shows fill p → ∃ e', e.play u crlf fill log = some e' ∧ e'.Shows fill p') :
    (v.feed u crlf (logBytes xtermDB log)).Shows p' ∧ (v.feed u crlf (logBytes xtermDB log)).Ready := by
  obtain ⟨e', h1, h2⟩ := hp v.fill (pageEmu v.fill v.t.bce p) (pageEmu_shows _ _ _)
  have := play_refines log (pageEmu_refines hr hs) hm hlog h1
  exact ⟨shows_of_refines this h2, this.ready⟩

theorem traceT_sane (ops : List TOp) (os : List WriteRes) (tr : List (TOp × Bool)) (s : WS)
    (h : traceT xtermDB ops (WS.new os) = some (tr, s)) : ∀ o ∈ s.log, SaneOut o :=
  sane_runW saneLog_inv (ops.map TOp.unix) (WS.new os) s (fun o ho => by cases ho)
    (traceT_runW xtermDB ops _ _ _ h)

/-- When the last thing was the end of a session, everything has been delivered. -/
theorem released_delivered (env : WEnv) (ts : List TOp) (os : List WriteRes) (tr : List (TOp × Bool)) (s : WS)
    (hos : TakesAll os) (h1 : traceT env ts (WS.new os) = some (tr, s))
    (h2 : ts = [] ∨ ∃ ts', ts = ts' ++ [.release]) : s.dev = logBytes env s.log := by
  have hr := traceT_runW env ts _ _ _ h1
  have hd := inv_runW (delivered_inv env) (ts.map TOp.unix) (WS.new os) s ⟨takes_short hos, rfl⟩ hr
  have hp : s.pending = [] := by
    rcases h2 with rfl | ⟨ts', rfl⟩
    · simp only [traceT, Option.some.injEq, Prod.mk.injEq] at h1
      rw [← h1.2]; rfl
    · rw [List.map_append, runW_app] at hr
      obtain ⟨s1, h3, h4⟩ := Option.bind_eq_some_iff.mp hr
      have ht := inv_runW (takes_inv env) (ts'.map TOp.unix) (WS.new os) s1 hos h3
      obtain ⟨s2, h5, h7⟩ := Option.bind_eq_some_iff.mp h4
      cases h7
      cases h6 : WOp.run env .sessionEnd s1 with
      | ok x =>
        have h8 : (WOp.run env .sessionEnd s1).state = some s := h5
        rw [h6] at h8; cases h8
        exact release_empties ht h6
      | err x y => exact absurd h6 (sessionEnd_not_err env s1 y x)
      | stop w =>
        have h8 : (WOp.run env .sessionEnd s1).state = some s := h5
        rw [h6] at h8; cases h8
  have := hd.2
  rwa [hp, List.append_nil] at this

/-- **C68.** An xterm of any size up to 2³² lines and columns, between two sequences and with its margins
at the edges, shows a fresh page. A program makes any calls on a terminal whose `$TERM` is
`xterm-256color`, some of which may fail, and then flushes successfully; the operating system never takes
only a part of what it is given. When the xterm has read the bytes it has received it shows the page the
program asked for. -/
theorem C68_shown (u : UEnv) (crlf : Bool) (ops : List TOp) (os : List WriteRes) (v : Vt) (p p' : Page)
    (tr : List (TOp × Bool)) (s s' : WS) (hr : v.Ready) (hm : v.FullMargins)
    (hl : p.grid.size.lines ≤ 2 ^ 32) (hc : p.grid.size.columns ≤ 2 ^ 32)
    (hfresh : p.Fresh) (hshow : v.Shows p) (hos : NoShortWrites os)
    (hrun : traceT xtermDB ops (WS.new os) = some (tr, s)) (hpage : p.run u crlf tr = some p')
    (hflush : flush s = .ok s') :
    (v.feed u crlf s'.dev).Shows p' ∧ (v.feed u crlf s'.dev).Ready := by
  rw [(C57_received xtermDB ops os tr s s' hos hrun hflush).1]
  exact fed_shows hr hm hshow (traceT_sane ops os tr s hrun) fun fill e he =>
    C57_shown xtermDB xterm_direct u crlf fill ops os e p p' tr s hl hc hfresh he hrun hpage

/-- **C68** for the public methods: with a terminal or through guards; whenever no guard is held the xterm
has received everything, if the operating system takes what it is given. -/
theorem C68_public (u : UEnv) (crlf : Bool) (acts : List PAct) (os : List WriteRes) (v : Vt) (p p' : Page)
    (l : List (PubOp × Bool)) (s : WS) (hr : v.Ready) (hm : v.FullMargins)
    (hl : p.grid.size.lines ≤ 2 ^ 32) (hc : p.grid.size.columns ≤ 2 ^ 32)
    (hfresh : p.Fresh) (hshow : v.Shows p) (hos : TakesAll os)
    (hrun : runPubUnix xtermDB acts (WS.new os) = some (l, s)) (hpage : p.runPub u crlf l = some p') :
    (v.feed u crlf s.dev).Shows p' ∧ (v.feed u crlf s.dev).Ready := by
  rw [(C63_delivered xtermDB acts os l s hos hrun).2]
  refine fed_shows hr hm hshow ?_ fun fill e he =>
    C63_shown xtermDB xterm_direct u crlf fill acts os e p p' l s hl hc hfresh he hrun hpage
  obtain ⟨ts, tr, h1, -, -⟩ := runPub_trace xtermDB acts _ _ _ hrun
  exact traceT_sane ts os tr s h1

/-- **C68** for several threads: as C60, in bytes. When nobody holds the write lock any more the xterm
shows the page that the sessions of the threads asked for, one after another. -/
theorem C68_threads (scr : Bool) (u : UEnv) (crlf : Bool) (os : List WriteRes) (v : Vt) (p : Page)
    (tr : List (Nat × Label WS)) (s : Sys WS) (hr : v.Ready) (hm : v.FullMargins)
    (hl : p.grid.size.lines ≤ 2 ^ 32) (hc : p.grid.size.columns ≤ 2 ^ 32)
    (hfresh : p.Fresh) (hshow : v.Shows p) (hos : TakesAll os)
    (ex : Exec xtermDB (Typed scr) (Sys.init (WS.new os)) tr s)
    (hcalls : ∀ x ∈ uses tr, ∃ o : TOp, x.2 = o.unix.run xtermDB) (hfree : (s.mx .writer).owner = none) :
    ∃ (cs : List (Nat × List TOp)) (res : List (TOp × Bool)),
      uses tr = (inTurn cs).map (fun x => (x.1, x.2.unix.run xtermDB)) ∧ takers tr = cs.map (·.1) ∧
      traceT xtermDB (cs.flatMap (·.2)) (WS.new os) = some (res, s.ws) ∧
      ∀ p', p.run u crlf res = some p' → (v.feed u crlf s.ws.dev).Shows p' := by
  obtain ⟨cs, res, h1, h2, h3, h4⟩ := C60_one_thread scr xtermDB _ tr s ex hcalls hfree
  refine ⟨cs, res, h1, h2, h4, fun p' hp => ?_⟩
  have hend : cs.flatMap (·.2) = [] ∨ ∃ ts', cs.flatMap (·.2) = ts' ++ [.release] := by
    rcases List.eq_nil_or_concat cs with rfl | ⟨cs', x, rfl⟩
    · exact Or.inl rfl
    · obtain ⟨l, hl⟩ := List.getLast?_eq_some_iff.1 (h3 x (by simp))
      exact Or.inr ⟨cs'.flatMap (·.2) ++ l, by simp [hl]⟩
  rw [released_delivered xtermDB _ os res s.ws hos h4 hend]
  exact (fed_shows hr hm hshow (traceT_sane _ os res s.ws h4) fun fill e he =>
    C57_shown xtermDB xterm_direct u crlf fill _ os e p p' res s.ws hl hc hfresh he h4 hp).1

/-! ### Examples -/

/-- An xterm of 3 by 6, with something on the other buffer. -/
def demoVt : Vt where
  t := { size := ⟨3, 6⟩, cell := fun _ => .narrow [' '] .plain, cur := some ⟨0, 0⟩, last := none,
         attrs := .plain, bce := true }
  wrap := false
  other := fun _ => .narrow ['x'] .plain
  alt := false
  saved := (⟨2, 2⟩, false, .plain)
  top := 0
  bottom := 2
  visible := true
  keypad := false
  mode := fun _ => false
  ps := .ground

theorem demoVt_ready : demoVt.Ready :=
  ⟨by decide, ⟨⟨0, 0⟩, rfl, by decide⟩, fun _ h => (by cases h), rfl⟩

/-- It meets the hypotheses. -/
example : demoVt.Ready ∧ demoVt.FullMargins ∧ demoVt.Shows blankPage ∧ blankPage.Fresh ∧
    (traceT xtermDB pageCalls (WS.new [.fail, .eintr, .all])).isSome = true :=
  ⟨demoVt_ready, ⟨rfl, rfl⟩,
    ⟨rfl, fun _ _ => Or.inl rfl, fun _ h => by cases h; exact ⟨rfl, rfl⟩, fun _ h => (by cases h), rfl, rfl⟩,
    ⟨rfl, ⟨by decide, by rintro c ⟨⟩; decide, by rintro c ⟨⟩, by rintro l c ⟨⟩, by rintro l c x d ⟨⟩⟩⟩,
    by decide +kernel⟩

/-- The bytes of a short program, and what the xterm makes of them: red `世a`, at the beginning of the
second line. -/
example :
    let s := (traceT xtermDB [.fg (some .red), .moveTo ⟨1, 0⟩, .write ['世', 'a'], .flush] (WS.new [.all])).map (·.2)
    s.map (·.dev) = some (esc "31m" ++ esc "2;1H" ++ [0xe4, 0xb8, 0x96, 0x61]) ∧
    s.map (fun s => (List.range 4).map fun i => (demoVt.feed demoEnv true s.dev).t.cell ⟨1, i⟩) =
      some [.left ['世'] (view ⟨some .red, none, 0⟩), .right, .narrow ['a'] (view ⟨some .red, none, 0⟩),
        .narrow [' '] .plain] := by decide +kernel

/-- The program of C57: the same page, from bytes. -/
example : ((traceT xtermDB pageCalls (WS.new [.fail, .eintr, .all])).map fun x =>
      ((demoVt.feed demoEnv true x.2.dev).visible, (demoVt.feed demoEnv true x.2.dev).pos,
        (List.range 6).map fun i => (demoVt.feed demoEnv true x.2.dev).t.cell ⟨0, i⟩)) =
    some (false, ⟨2, 1⟩,
      [.left ['世'] (view ⟨some .red, none, 0⟩), .right, .narrow ['a'] (view ⟨some .red, none, 0⟩),
       .narrow ['b'] (view ⟨none, none, .BOLD⟩), .narrow [' '] (view ⟨none, some .blue, 0⟩),
       .narrow [' '] (view ⟨none, some .blue, 0⟩)]) := by decide +kernel

end Mortal
