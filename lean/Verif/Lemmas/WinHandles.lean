import Verif.Lemmas.WinSignal
import Verif.Spec.WinHandles

/-! # The handles a program uses on Windows: helper lemmas -/

namespace Mortal
open Spec

/-! ## Following the calls -/

/-- `Handles.step` when the system never answers with the invalid handle. -/
def Spec.Handles.stepL (k : Handles) : WEv → Option Handles
  | .call (.getStd _) (.handle h) => some (if h = 0 then k else { k with lent := h :: k.lent })
  | .call .create (.handle h) => some (if h = 0 then k else { k with own := h :: k.own })
  | .call (.close h) a =>
    if h ∈ k.own then some (if a = .ok then { k with own := k.own.erase h } else k) else none
  | .call c _ =>
    match handleUsed c with
    | some h => if h ∈ k.lent ∨ h ∈ k.own then some k else none
    | none => some k
  | _ => some k

/-- `Handles.follow`, likewise. -/
def Spec.Handles.followL : Handles → List WEv → Option Handles
  | k, [] => some k
  | k, e :: l =>
    match k.stepL e with
    | some k' => k'.followL l
    | none => none

theorem follow_valid {k : Handles} {D : List WEv} (h : NeverInvalid D) : k.follow D = k.followL D := by
  induction D generalizing k with
  | nil => rfl
  | cons e D ih =>
    have he : k.step e = k.stepL e := by
      cases e with
      | ctrl t x y => rfl
      | input r => rfl
      | call c a =>
        cases c <;> try rfl
        all_goals
          cases a <;> try rfl
          all_goals
            have := h _ _ List.mem_cons_self
            simp [Handles.step, Handles.stepL, this]
    simp only [Handles.follow, Handles.followL, he]
    cases k.stepL e with
    | none => rfl
    | some k' => exact ih fun c x hx => h c x (List.mem_cons_of_mem _ hx)

theorem handles_append (k : Handles) (A B : List WEv) :
    k.followL (A ++ B) = (k.followL A).bind fun k' => k'.followL B := by
  induction A generalizing k with
  | nil => rfl
  | cons e A ih =>
    simp only [List.cons_append, Handles.followL]
    cases k.stepL e with
    | none => rfl
    | some k' => exact ih k'

/-- The calls that open or close a handle. -/
def opensOrCloses : ConCall → Bool
  | .getStd _ => true
  | .create => true
  | .close _ => true
  | _ => false

/-- An event that neither opens nor closes anything and uses the handles `a` and `b` only. -/
inductive PlainEv (a b : Nat) : WEv → Prop
  | ctrl (t : BitVec 32) (x y : Bool) : PlainEv a b (.ctrl t x y)
  | input (r : InRec) : PlainEv a b (.input r)
  | call (c : ConCall) (x : Ans) (h : opensOrCloses c = false)
      (hh : ∀ h, handleUsed c = some h → h = a ∨ h = b) : PlainEv a b (.call c x)

theorem plain_step {k : Handles} {a b : Nat} (ha : a ∈ k.lent ∨ a ∈ k.own) (hb : b ∈ k.lent ∨ b ∈ k.own)
    {e : WEv} (he : PlainEv a b e) : k.stepL e = some k := by
  have hh : ∀ h, h = a ∨ h = b → h ∈ k.lent ∨ h ∈ k.own := by
    rintro h (rfl | rfl) <;> assumption
  cases he with
  | ctrl t x y => rfl
  | input r => rfl
  | call c x h g =>
    cases c <;> first
      | exact Bool.noConfusion h
      | rfl
      | exact if_pos (hh _ (g _ rfl))

theorem plain_follow {k : Handles} {a b : Nat} (ha : a ∈ k.lent ∨ a ∈ k.own)
    (hb : b ∈ k.lent ∨ b ∈ k.own) {D : List WEv} (hD : ∀ e ∈ D, PlainEv a b e) : k.followL D = some k := by
  induction D with
  | nil => rfl
  | cons e D ih =>
    simp only [Handles.followL, plain_step ha hb (hD e List.mem_cons_self)]
    exact ih fun x hx => hD x (List.mem_cons_of_mem _ hx)

/-! ## Code that opens and closes nothing -/

/-- The code uses the handles `a` and `b` only, when the writer's handle is `b`, and leaves it so. -/
def UsesOnly (a b : Nat) {α : Type} (m : WM α) : Prop :=
  ∀ s, s.outH = b →
    (∀ x s', m s = .ok x s' → s'.outH = b ∧ ∃ D, s'.log = s.log ++ D ∧ ∀ e ∈ D, PlainEv a b e) ∧
    (∀ x s', m s = .err x s' → s'.outH = b ∧ ∃ D, s'.log = s.log ++ D ∧ ∀ e ∈ D, PlainEv a b e)

variable {a b : Nat}

theorem UsesOnly.pure {α : Type} (x : α) : UsesOnly a b (pure x : WM α) :=
  fun s hs => ⟨fun _ _ h => by cases h; exact ⟨hs, [], by simp, by simp⟩, fun _ _ h => by cases h⟩

theorem uses_trans {s s1 s2 : WinSt}
    (h1 : ∃ D, s1.log = s.log ++ D ∧ ∀ e ∈ D, PlainEv a b e)
    (h2 : ∃ D, s2.log = s1.log ++ D ∧ ∀ e ∈ D, PlainEv a b e) :
    ∃ D, s2.log = s.log ++ D ∧ ∀ e ∈ D, PlainEv a b e := by
  obtain ⟨D1, e1, p1⟩ := h1
  obtain ⟨D2, e2, p2⟩ := h2
  refine ⟨D1 ++ D2, by rw [e2, e1, List.append_assoc], fun e he => ?_⟩
  rcases List.mem_append.1 he with h | h
  · exact p1 e h
  · exact p2 e h

theorem UsesOnly.bind {α β : Type} {m : WM α} {f : α → WM β} (h : UsesOnly a b m)
    (hf : ∀ x, UsesOnly a b (f x)) : UsesOnly a b (m >>= f) := by
  intro s hs
  simp only [sm_bind]
  constructor
  · intro y s' e
    cases hm : m s with
    | ok x s1 =>
      rw [hm] at e
      obtain ⟨o1, d1⟩ := (h s hs).1 x s1 hm
      obtain ⟨o2, d2⟩ := (hf x s1 o1).1 y s' e
      exact ⟨o2, uses_trans d1 d2⟩
    | err e' s1 => rw [hm] at e; cases e
    | stop w => rw [hm] at e; cases e
  · intro y s' e
    cases hm : m s with
    | ok x s1 =>
      rw [hm] at e
      obtain ⟨o1, d1⟩ := (h s hs).1 x s1 hm
      obtain ⟨o2, d2⟩ := (hf x s1 o1).2 y s' e
      exact ⟨o2, uses_trans d1 d2⟩
    | err e' s1 => rw [hm] at e; cases e; exact (h s hs).2 _ _ hm
    | stop w => rw [hm] at e; cases e

theorem uses_get {β : Type} {f : WinSt → WM β} (hf : ∀ s, s.outH = b → UsesOnly a b (f s)) :
    UsesOnly a b (SM.get >>= f) :=
  fun s hs => hf s hs s hs

theorem uses_throw {α : Type} (e : IoErr) : UsesOnly a b (SM.throw e : WM α) :=
  fun s hs => ⟨fun _ _ h => by (cases h), fun _ _ h => by cases h; exact ⟨hs, [], by simp, by simp⟩⟩

theorem uses_halt {α : Type} (w : Stop) : UsesOnly a b (SM.halt w : WM α) :=
  fun s _ => ⟨fun _ _ h => by (cases h), fun _ _ h => by (cases h)⟩

theorem uses_ofPanics {α : Type} (x : Panics α) : UsesOnly a b (SM.ofPanics x : WM α) := by
  cases x with
  | none => exact uses_halt _
  | some a => exact UsesOnly.pure a

theorem uses_modify {f : WinSt → WinSt} (h1 : ∀ s, (f s).log = s.log) (h2 : ∀ s, (f s).outH = s.outH) :
    UsesOnly a b (SM.modify f) := by
  refine fun s hs => ⟨fun _ _ h => ?_, fun _ _ h => by cases h⟩
  cases h
  exact ⟨(h2 s).trans hs, [], by simp [h1], by simp⟩

theorem hap_plain (a b : Nat) (e : WHap) (s : WinSt) :
    ∃ x, (e.run s).outH = s.outH ∧ (e.run s).log = s.log ++ [x] ∧ PlainEv a b x ∧
      ∀ c y, x ≠ .call c y := by
  cases e with
  | input r => exact ⟨.input r, rfl, rfl, .input r, fun _ _ h => WEv.noConfusion h⟩
  | ctrl t w =>
    simp only [WHap.run, ctrlHandler]
    by_cases h : t = CTRL_BREAK ∨ t = CTRL_C
    · rw [if_pos h]
      by_cases hb : s.catchSet &&& (1 <<< t.toNat) = 0
      · rw [if_pos hb]
        exact ⟨.ctrl t false false, rfl, rfl, .ctrl _ _ _, fun _ _ h => WEv.noConfusion h⟩
      · rw [if_neg hb]
        exact ⟨.ctrl t true w, rfl, rfl, .ctrl _ _ _, fun _ _ h => WEv.noConfusion h⟩
    · rw [if_neg h]
      exact ⟨.ctrl t false false, rfl, rfl, .ctrl _ _ _, fun _ _ h => WEv.noConfusion h⟩

/-- What happens by itself changes only the record and the signal kept. -/
theorem haps_plain (a b : Nat) (l : List WHap) (s : WinSt) :
    (l.foldl WHap.run s).outH = s.outH ∧
    ∃ D, (l.foldl WHap.run s).log = s.log ++ D ∧ ∀ e ∈ D, PlainEv a b e ∧ ∀ c x, e ≠ .call c x := by
  induction l generalizing s with
  | nil => exact ⟨rfl, [], by simp, by simp⟩
  | cons e l ih =>
    obtain ⟨h1, D, h2, h3⟩ := ih (e.run s)
    have := hap_plain a b e s
    obtain ⟨x, g1, g2, g3, g4⟩ := this
    refine ⟨h1.trans g1, x :: D, by rw [List.foldl_cons, h2, g2]; simp, fun y hy => ?_⟩
    rcases List.mem_cons.1 hy with rfl | hy
    · exact ⟨g3, g4⟩
    · exact h3 y hy

/-- A call of the console. -/
theorem conCall_inv (a b : Nat) {c : ConCall} {s s' : WinSt} {x : Ans} (h : conCall c s = .ok x s') :
    s'.outH = s.outH ∧ ∃ D, s'.log = s.log ++ D ++ [.call c x] ∧
      ∀ e ∈ D, PlainEv a b e ∧ ∀ c x, e ≠ .call c x := by
  unfold conCall at h
  cases ho : s.os with
  | nil => rw [ho] at h; cases h
  | cons st os =>
    rw [ho] at h
    cases h
    obtain ⟨h1, D, h2, h3⟩ := haps_plain a b st.haps { s with os := os }
    exact ⟨h1, D, by simp only [h2], h3⟩

theorem conCall_no_err {c : ConCall} {s s' : WinSt} {e : IoErr} : conCall c s ≠ .err e s' := by
  unfold conCall
  cases s.os <;> simp

theorem uses_conCall {c : ConCall} (hc : opensOrCloses c = false)
    (hh : ∀ h, handleUsed c = some h → h = a ∨ h = b) : UsesOnly a b (conCall c) := by
  intro s hs
  refine ⟨fun x s' h => ?_, fun x s' h => absurd h conCall_no_err⟩
  obtain ⟨h1, D, h2, h3⟩ := conCall_inv a b h
  refine ⟨h1.trans hs, D ++ [.call c x], by rw [h2]; simp, fun e he => ?_⟩
  rcases List.mem_append.1 he with h | h
  · exact (h3 e h).1
  · rw [List.mem_singleton] at h; subst h; exact .call c x hc hh

theorem uses_boolCall {c : ConCall} (hc : opensOrCloses c = false)
    (hh : ∀ h, handleUsed c = some h → h = a ∨ h = b) : UsesOnly a b (boolCall c) :=
  UsesOnly.bind (uses_conCall hc hh) fun x => by
    cases x <;> first | exact UsesOnly.pure _ | exact uses_throw _ | exact uses_halt _

theorem uses_info {h : Nat} (hh : h = a ∨ h = b) : UsesOnly a b (consoleInfo h) :=
  UsesOnly.bind (uses_conCall rfl fun _ e => by cases e; exact hh) fun x => by
    cases x <;> first | exact UsesOnly.pure _ | exact uses_throw _ | exact uses_halt _

theorem uses_mode {h : Nat} (hh : h = a ∨ h = b) : UsesOnly a b (consoleMode h) :=
  UsesOnly.bind (uses_conCall rfl fun _ e => by cases e; exact hh) fun x => by
    cases x <;> first | exact UsesOnly.pure _ | exact uses_throw _ | exact uses_halt _

theorem uses_when {p : Prop} [Decidable p] {m : WM Unit} (h : UsesOnly a b m) :
    UsesOnly a b (SM.when p m) := by
  unfold SM.when
  split
  · exact h
  · exact UsesOnly.pure _

theorem uses_ignore {m : WM Unit} (h : UsesOnly a b m) : UsesOnly a b (SM.ignore m) := by
  intro s hs
  unfold SM.ignore
  constructor
  · intro x s' e
    cases hm : m s with
    | ok y s1 => rw [hm] at e; cases e; exact (h s hs).1 _ _ hm
    | err y s1 => rw [hm] at e; cases e; exact (h s hs).2 _ _ hm
    | stop w => rw [hm] at e; cases e
  · intro x s' e
    cases hm : m s <;> rw [hm] at e <;> cases e

/-- Code made of such calls. -/
macro "uses_tac" : tactic =>
  `(tactic| repeat' (first
    | with_reducible exact UsesOnly.pure _ | with_reducible exact uses_ofPanics _
    | with_reducible exact uses_throw _ | with_reducible exact uses_halt _
    | with_reducible refine uses_get fun _ _ => ?_
    | (with_reducible refine uses_modify ?_ ?_
       · exact fun _ => rfl
       · exact fun _ => rfl)
    | (with_reducible refine uses_boolCall ?_ ?_
       · rfl
       · intro h e; cases e <;> first | exact Or.inl rfl | exact Or.inr ‹_›)
    | (with_reducible refine uses_conCall ?_ ?_
       · rfl
       · intro h e; cases e <;> first | exact Or.inl rfl | exact Or.inr ‹_›)
    | (with_reducible refine uses_info ?_; first | exact Or.inl rfl | exact Or.inr ‹_›)
    | (with_reducible refine uses_mode ?_; first | exact Or.inl rfl | exact Or.inr ‹_›)
    | with_reducible refine UsesOnly.bind ?_ fun _ => ?_
    | with_reducible refine uses_when ?_
    | split))

theorem uses_getCtrl : UsesOnly a b getCtrl := by unfold getCtrl; uses_tac
theorem uses_takeCtrl : UsesOnly a b takeCtrl := by unfold takeCtrl; uses_tac

variable (t : WTerm)

theorem uses_wait (d : Option Duration) : UsesOnly t.inH b (winWait t d) := by
  unfold winWait
  refine UsesOnly.bind uses_getCtrl fun r => ?_
  uses_tac

theorem uses_rawEvent (n : Nat) (d : Option Duration) : UsesOnly t.inH b (winReadRawEvent t n d) := by
  unfold winReadRawEvent
  refine UsesOnly.bind (uses_wait t d) fun r => ?_
  split
  · exact UsesOnly.pure _
  refine UsesOnly.bind uses_takeCtrl fun r => ?_
  uses_tac

theorem uses_raw (n : Nat) (d : Option Duration) : UsesOnly t.inH b (winReadRaw t n d) := by
  unfold winReadRaw
  refine UsesOnly.bind (uses_wait t d) fun r => ?_
  split
  · exact UsesOnly.pure _
  refine UsesOnly.bind uses_takeCtrl fun r => ?_
  uses_tac

theorem uses_event (d : Option Duration) : UsesOnly t.inH b (winReadEvent t d) := by
  unfold winReadEvent
  refine UsesOnly.bind (uses_rawEvent t 1 d) fun r => ?_
  uses_tac

theorem uses_prepare (cfg : PrepareConfig) : UsesOnly t.inH b (winPrepare t cfg) := by
  unfold winPrepare setConsoleMode catchSignals
  uses_tac

theorem uses_restore (st : WinPrepared) : UsesOnly t.inH b (winRestore t st) := by
  unfold winRestore setConsoleMode
  uses_tac

theorem uses_writeLoop {h : Nat} (hh : h = b) (f : Nat) (buf : List (BitVec 16)) :
    UsesOnly a b (writeLoop h f buf) := by
  induction f generalizing buf with
  | zero => unfold writeLoop; uses_tac
  | succ f ih =>
    unfold writeLoop
    split
    · refine UsesOnly.bind (uses_conCall rfl fun _ e => by cases e; exact Or.inr hh) fun x => ?_
      cases x <;> first | exact ih _ | exact uses_throw _ | exact uses_halt _
    · exact UsesOnly.pure _

theorem uses_write (text : List Char) : UsesOnly a b (winWriteStr text) :=
  uses_get fun _ h => uses_writeLoop h _ _

theorem uses_attr (op : AttrOp) : UsesOnly a b (op.run t) := by
  cases op <;> simp only [AttrOp.run] <;>
    simp only [winSetFg, winSetBg, winSetStyle, winAddStyle, winRemoveStyle, winSetAttributes,
      winClearAttributes, updateAttrs] <;> uses_tac

theorem uses_setAttributes (th : Theme) : UsesOnly a b (winSetAttributes t th) := by
  unfold winSetAttributes updateAttrs; uses_tac

theorem uses_cursorMode (m : CursorMode) : UsesOnly a b (winCursorMode m) := by
  unfold winCursorMode; uses_tac

theorem uses_moveCursor (p : Cursor) : UsesOnly a b (winMoveCursor p) := by
  unfold winMoveCursor moveAbs; uses_tac

theorem uses_clearScreen : UsesOnly a b (winClearScreen t) := by
  unfold winClearScreen clearArea moveAbs moveWindow; uses_tac

theorem uses_size : UsesOnly a b winSize := by
  unfold winSize consoleSize; uses_tac

theorem uses_termDrop : UsesOnly a b (winTermDrop t) := by
  unfold winTermDrop
  refine uses_ignore (UsesOnly.bind (uses_cursorMode _) fun _ => ?_)
  unfold setConsoleMode
  uses_tac

theorem uses_sig (op : SigOp) : UsesOnly t.inH b (op.run t) := by
  have quiet : ∀ {α : Type} {m : WM α}, UsesOnly t.inH b m →
      UsesOnly t.inH b (do let _ ← m; pure none : WM (Option Event)) :=
    fun h => UsesOnly.bind h fun _ => UsesOnly.pure _
  cases op with
  | prepare cfg => exact quiet (uses_prepare t cfg)
  | wait d => exact quiet (uses_wait t d)
  | readEvent d => exact uses_event t d
  | readRaw n d => exact UsesOnly.bind (uses_raw t n d) fun _ => UsesOnly.pure _
  | readRawEvent n d => exact UsesOnly.bind (uses_rawEvent t n d) fun _ => UsesOnly.pure _
  | restore st => exact quiet (uses_restore t st)
  | write text => exact quiet (uses_write text)
  | attr op => exact quiet (uses_attr t op)
  | moveTo p => exact quiet (uses_moveCursor p)
  | moveBy off => exact quiet (by unfold moveRel moveAbs; uses_tac)
  | clearScreen => exact quiet (uses_clearScreen t)
  | clearLine => exact quiet (by unfold winClearToLineEnd clearArea; uses_tac)
  | clearRest => exact quiet (by unfold winClearToScreenEnd clearArea; uses_tac)
  | cursorMode m => exact quiet (uses_cursorMode m)

end Mortal
