import Verif.Lemmas.WriterBytes

/-!
# Terminal output: attributes, bytes, movement (C21, C22, C23, C24, C41)
-/

namespace Mortal
open Spec

/-! ## C21 -/

/-- C21, one call. Whatever the call and the state it starts from, if the attributes in effect on
the device are the `t` the writer believes, then afterwards they are those the call asks for. -/
theorem C21_call (env : WEnv) (hfull : FullAttrs env) (op : WOp) (s : WS) (t : Theme)
    (hb : s.theme = t) (hd : devAttrs s.log = view t) :
    match op.run env s with
    | .ok s' => s'.theme = want t (op, true) ∧ devAttrs s'.log = view (want t (op, true))
    | .err _ s' => s'.theme = want t (op, false) ∧ devAttrs s'.log = view (want t (op, false))
    | .stop _ => True := by
  have hat : At (FullAttrs env) t s := ⟨hb, fun _ => hd⟩
  by_cases ha : IsAttrCall op
  · have := attrCall_post (env := env) ha hat true
    cases ho : op.run env s with
    | ok s' => rw [ho] at this; exact ⟨this.1, this.2 hfull⟩
    | err e s' => rw [ho] at this; exact absurd hfull this
    | stop w => trivial
  · by_cases hw : ∃ fg bg st b, op = .writeStyled fg bg st b
    · obtain ⟨fg, bg, st, b, rfl⟩ := hw
      simp only [WOp.run, writeStyled]
      have h1 := setAttrs_post (env := env) fg bg st hat
      cases ho : setAttrs env fg bg st s with
      | stop w => trivial
      | err e s' => rw [ho] at h1; exact absurd hfull h1
      | ok s1 =>
        rw [ho] at h1
        simp only [Outcome.andThen]
        have h2 := writeBytes_always (F := FullAttrs env) b h1
        cases ho2 : writeBytes b s1 with
        | stop w => trivial
        | err e s' =>
          have h3 := h2 s' (by rw [ho2]; rfl)
          exact ⟨h3.1, h3.2 hfull⟩
        | ok s2 =>
          have h3 : At (FullAttrs env) _ s2 := h2 s2 (by rw [ho2]; rfl)
          dsimp only
          have h4 := clear_post (env := env) h3
          cases ho3 : clearAttributes env s2 with
          | stop w => trivial
          | err e s' => rw [ho3] at h4; exact absurd hfull h4
          | ok s' => rw [ho3] at h4; exact ⟨h4.1, h4.2 hfull⟩
    · have hne : ∀ fg bg st b, op ≠ .writeStyled fg bg st b :=
        fun fg bg st b e => hw ⟨fg, bg, st, b, e⟩
      have h2 := other_always (env := env) ha hne hat
      have hwant : ∀ b, want t (op, b) = t := by
        intro b
        cases op <;> first | rfl | exact absurd trivial ha | exact absurd rfl (hne _ _ _ _)
      rw [hwant, hwant]
      cases ho : op.run env s with
      | stop w => trivial
      | ok s' => have := h2 s' (by rw [ho]; rfl); exact ⟨this.1, this.2 hfull⟩
      | err e s' => have := h2 s' (by rw [ho]; rfl); exact ⟨this.1, this.2 hfull⟩

theorem trace_follow (env : WEnv) (hfull : FullAttrs env) :
    ∀ (ops : List WOp) (s s' : WS) (t : Theme) (tr : List (WOp × Bool)),
    s.theme = t → devAttrs s.log = view t → traceW env ops s = some (tr, s') →
    s'.theme = tr.foldl want t ∧ devAttrs s'.log = view (tr.foldl want t) := by
  intro ops
  induction ops with
  | nil =>
    intro s s' t tr hb hd e
    simp only [traceW, Option.some.injEq, Prod.mk.injEq] at e
    obtain ⟨rfl, rfl⟩ := e
    exact ⟨hb, hd⟩
  | cons op ops ih =>
    intro s s' t tr hb hd e
    have hc := C21_call env hfull op s t hb hd
    simp only [traceW] at e
    cases ho : op.run env s with
    | stop w => rw [ho] at e; cases e
    | ok s1 =>
      rw [ho] at e hc
      dsimp only at e
      cases ht : traceW env ops s1 with
      | none => rw [ht] at e; cases e
      | some p =>
        rw [ht] at e
        simp only [Option.map_some, Option.some.injEq, Prod.mk.injEq] at e
        obtain ⟨rfl, rfl⟩ := e
        simpa using ih s1 p.2 _ p.1 hc.1 hc.2 ht
    | err x s1 =>
      rw [ho] at e hc
      dsimp only at e
      cases ht : traceW env ops s1 with
      | none => rw [ht] at e; cases e
      | some p =>
        rw [ht] at e
        simp only [Option.map_some, Option.some.injEq, Prod.mk.injEq] at e
        obtain ⟨rfl, rfl⟩ := e
        simpa using ih s1 p.2 _ p.1 hc.1 hc.2 ht

/-- C21. On a terminal that supports all attributes, after any history of calls (of any kind, with
any operating system behaviour, errors included) the attributes in effect on the device are those
the calls ask for. -/
theorem C21_attributes_follow (env : WEnv) (hfull : FullAttrs env) (ops : List WOp)
    (os : List WriteRes) (tr : List (WOp × Bool)) (s : WS)
    (h : traceW env ops (WS.new os) = some (tr, s)) :
    devAttrs s.log = view (tr.foldl want plainTheme) :=
  (trace_follow env hfull ops (WS.new os) s plainTheme tr rfl rfl h).2

/-- C21. On such a terminal the attribute calls never fail. -/
theorem C21_calls_succeed (env : WEnv) (hfull : FullAttrs env) (op : WOp) (ha : IsAttrCall op)
    (ops : List WOp) (os : List WriteRes) (s : WS) (tr : List (WOp × Bool))
    (h : traceW env ops (WS.new os) = some (tr, s)) : ∃ s', op.run env s = .ok s' := by
  have hs := trace_follow env hfull ops (WS.new os) s plainTheme tr rfl rfl h
  have := attrCall_post (F := FullAttrs env) (env := env) ha (t := tr.foldl want plainTheme)
    ⟨hs.1, fun _ => hs.2⟩ true
  cases ho : op.run env s with
  | ok s' => exact ⟨s', rfl⟩
  | err e s' => rw [ho] at this; exact absurd hfull this
  | stop w => rw [ho] at this; exact this.elim

/-- The demonstration database supports all attributes. -/
example : FullAttrs demoDB := fun _ _ => ⟨_, rfl, fun _ => rfl⟩

/-- Non-trivial case: bold red text, then only the colour is removed: the device is reset and bold
is turned on again. -/
example :
    (traceW demoDB [.setFg (some .red), .addStyle .BOLD, .writeStr [104, 105], .setFg none]
      (WS.new [])).map (fun p => (p.2.log, devAttrs p.2.log)) =
    some ([.cap .setAForeground [1], .cap .enterBold [], .text [104, 105],
        .cap .exitAttributeMode [], .cap .enterBold []],
      ⟨none, none, true, false, false, false⟩) := by decide

/-! ## C22 -/

/-- C22. Attribute calls return, on any terminal and in any state: the mutual recursion of the
attribute routines stops and nothing in them panics or waits. -/
theorem C22_calls_return (env : WEnv) (op : WOp) (ha : IsAttrCall op) (s : WS) :
    ∃ s', (op.run env s).state = some s' := by
  have := attrCall_post (F := False) (env := env) ha (s := s) (t := s.theme)
    ⟨rfl, fun h => h.elim⟩ true
  cases ho : op.run env s with
  | ok s' => exact ⟨s', rfl⟩
  | err e s' => exact ⟨s', rfl⟩
  | stop w => rw [ho] at this; exact this.elim

theorem diff_self (a : Style) : Style.diff a a = 0#8 := by
  ext i hi
  simp [Style.diff]

theorem addStyle_none (env : WEnv) (st : Style) (s : WS) (h : Style.diff st s.style = 0#8) :
    addStyle env st s = .ok s := by
  unfold addStyle
  rw [h]
  simp only [contains_bold, contains_italic, contains_reverse, contains_underline,
    BitVec.getLsbD_zero]
  simp [Outcome.andThen, whenDo]

theorem removeStyle_none (env : WEnv) (n : Nat) (st : Style) (s : WS) (h : st &&& s.style = 0#8) :
    areq env (n + 1) (.removeStyle st) s = .ok s := by
  unfold areq
  dsimp only
  rw [h]
  simp only [contains_italic, contains_underline, intersects_br,
    BitVec.getLsbD_zero]
  have hz : Style.diff s.style 0#8 = s.style := by
    ext i hi
    simp only [Style.diff, BitVec.getElem_and, BitVec.getElem_not, BitVec.getElem_zero]
    simp
  simp [Outcome.andThen, whenDo, hz]

theorem setStyle_same (env : WEnv) (n : Nat) (s : WS) :
    areq env (n + 2) (.setStyle s.style) s = .ok s := by
  unfold areq
  dsimp only
  rw [diff_self, intersects_br]
  simp only [BitVec.getLsbD_zero]
  rw [if_neg (by simp), addStyle_none env _ s (by simp [Style.diff])]
  exact removeStyle_none env n _ s (by simp)

/-- C22. A call asking for what the writer already believes in effect changes nothing at all: no
output is produced, buffered or sent. -/
theorem C22_redundant_silent (env : WEnv) (op : WOp) (ha : IsAttrCall op) (s : WS) (b : Bool)
    (h : want s.theme (op, b) = s.theme) : op.run env s = .ok s := by
  cases op <;> first | exact ha.elim | skip
  case setFg c =>
    have : s.fg = c := (congrArg Theme.fg h).symm
    simp only [WOp.run, setFg, AFUEL]
    unfold areq
    rw [if_pos this]
  case setBg c =>
    have : s.bg = c := (congrArg Theme.bg h).symm
    simp only [WOp.run, setBg, AFUEL]
    unfold areq
    rw [if_pos this]
  case addStyle st =>
    have : s.style ||| st = s.style := congrArg Theme.style h
    refine addStyle_none env st s ?_
    ext i hi
    have hi' := congrArg (fun x => x[i]) this
    simp only [Style.diff, BitVec.getElem_or, BitVec.getElem_and, BitVec.getElem_not] at hi' ⊢
    revert hi'
    cases s.style[i] <;> cases st[i] <;> simp
  case removeStyle st =>
    have : s.style &&& ~~~st = s.style := congrArg Theme.style h
    refine removeStyle_none env 7 st s ?_
    ext i hi
    have hi' := congrArg (fun x => x[i]) this
    simp only [BitVec.getElem_and, BitVec.getElem_not] at hi' ⊢
    revert hi'
    cases s.style[i] <;> cases st[i] <;> simp
  case setStyle st =>
    have : st = s.style := congrArg Theme.style h
    subst this
    exact setStyle_same env 6 s
  case setTheme th =>
    have : th = s.theme := h
    subst this
    simp only [WOp.run, setAttrs, WS.theme]
    have hw : whenDo (s.fg.isSome && s.fg.isNone || s.bg.isSome && s.bg.isNone)
        (clearAttributes env) s = .ok s := by
      unfold whenDo
      rw [if_neg]
      cases s.fg <;> cases s.bg <;> simp
    rw [hw]
    have h1 : setStyle env s.style s = .ok s := setStyle_same env 6 s
    have h2 : setFg env s.fg s = .ok s := by
      simp only [setFg, AFUEL]; unfold areq; rw [if_pos rfl]
    have h3 : setBg env s.bg s = .ok s := by
      simp only [setBg, AFUEL]; unfold areq; rw [if_pos rfl]
    simp only [Outcome.andThen, h1, h2, h3]
  case clearAttributes =>
    have h' : plainTheme = s.theme := h
    have hf : s.fg = none := (congrArg Theme.fg h').symm
    have hb : s.bg = none := (congrArg Theme.bg h').symm
    have hs : s.style = 0#8 := (congrArg Theme.style h').symm
    simp only [WOp.run, clearAttributes]
    rw [if_neg]
    simp [hf, hb, hs, Style.isEmpty]

/-- C22. On any terminal, a successful attribute call makes the writer believe in effect what was
asked for, so repeating it immediately is silent. -/
theorem C22_repeat_silent (env : WEnv) (op : WOp) (ha : IsAttrCall op) (s s' : WS)
    (h : op.run env s = .ok s') :
    s'.theme = want s.theme (op, true) ∧ op.run env s' = .ok s' := by
  have := attrCall_post (F := False) (env := env) ha (s := s) (t := s.theme)
    ⟨rfl, fun h => h.elim⟩ true
  rw [h] at this
  have ht : s'.theme = want s.theme (op, true) := this.1
  refine ⟨ht, C22_redundant_silent env op ha s' true ?_⟩
  rw [ht]
  cases op <;> first | exact ha.elim | rfl | skip
  case addStyle st =>
    simp only [want, Theme.mk.injEq, true_and]
    ext i hi
    simp
  case removeStyle st =>
    simp only [want, Theme.mk.injEq, true_and]
    ext i hi
    simp

/-- Non-trivial case: the third call is redundant. -/
example : (runW demoDB [.setTheme ⟨some .red, none, .BOLD⟩] (WS.new [])).bind (fun s =>
    (runW demoDB [.setFg (some .red)] s).map (fun s' => (s'.pending, s' = s))) =
    some ([27, 49, 27, 51, 1], True) := by
  simp [runW, WOp.run, setAttrs, setFg, setBg, setStyle, AFUEL, areq, WS.new, whenDo,
    Outcome.andThen, Outcome.state, addStyle, Style.diff, Style.contains,
    Style.intersects, Style.BOLD, Style.ITALIC, Style.REVERSE, Style.UNDERLINE, expandOpt, demoDB,
    expand, setFgColor, colorCode]

/-! ## C23 -/

/-- C23, part: if the operating system never takes only a part of what it is given (it may take
everything, be interrupted, or fail), then after any history of calls the bytes received by the
device followed by the pending ones are the concatenation of everything handed over, in order.
Missing: short writes, for which the claim is false (below). -/
theorem C23_in_order_partial (env : WEnv) (ops : List WOp) (os : List WriteRes) (s : WS)
    (hos : NoShortWrites os) (h : runW env ops (WS.new os) = some s) :
    s.dev ++ s.pending = logBytes env s.log :=
  (inv_runW (delivered_inv env) ops (WS.new os) s ⟨hos, rfl⟩ h).2

/-- Writing text, flushing, and ending guard sessions. -/
def IsTextCall : WOp → Prop
  | .writeStr _ | .flush | .sessionEnd => True
  | _ => False

/-- The text accepted by a call: all of it if the call returned `Ok`, else nothing. -/
def acceptedText : WOp × Bool → Bytes
  | (.writeStr b, true) => b
  | _ => []

theorem text_trace (env : WEnv) : ∀ (ops : List WOp) (s s' : WS) (tr : List (WOp × Bool)),
    (∀ op ∈ ops, IsTextCall op) → NoShortWrites s.os → traceW env ops s = some (tr, s') →
    s'.dev ++ s'.pending = s.dev ++ s.pending ++ tr.flatMap acceptedText := by
  intro ops
  induction ops with
  | nil =>
    intro s s' tr _ _ e
    simp only [traceW, Option.some.injEq, Prod.mk.injEq] at e
    obtain ⟨rfl, rfl⟩ := e
    simp
  | cons op ops ih =>
    intro s s' tr hops hos e
    have hstep : match op.run env s with
      | .ok s1 => NoShortWrites s1.os ∧
          s1.dev ++ s1.pending = s.dev ++ s.pending ++ acceptedText (op, true)
      | .err _ s1 => NoShortWrites s1.os ∧
          s1.dev ++ s1.pending = s.dev ++ s.pending ++ acceptedText (op, false)
      | .stop _ => True := by
      have hop := hops op (by simp)
      have hfl := flush_whole s hos
      cases op <;> first | exact hop.elim | skip
      case writeStr b =>
        have := writeBytes_whole b s hos
        simp only [WOp.run]
        cases ho : writeBytes b s with
        | ok s1 => rw [ho] at this; exact ⟨this.1, this.2.1⟩
        | err e s1 => rw [ho] at this; exact ⟨this.1, by simp [this.2.1, acceptedText]⟩
        | stop w => trivial
      case flush =>
        simp only [WOp.run]
        cases ho : flush s with
        | ok s1 =>
          rw [ho] at hfl
          obtain ⟨h1, h2, h3, _⟩ := hfl
          exact ⟨h1, by simp [h2, h3, acceptedText]⟩
        | err e s1 =>
          rw [ho] at hfl
          obtain ⟨h1, h2, h3, _⟩ := hfl
          exact ⟨h1, by simp [h2, h3, acceptedText]⟩
        | stop w => trivial
      case sessionEnd =>
        simp only [WOp.run]
        cases ho : flush s with
        | ok s1 =>
          rw [ho] at hfl
          obtain ⟨h1, h2, h3, _⟩ := hfl
          exact ⟨h1, by simp [h2, h3, acceptedText]⟩
        | err e s1 =>
          rw [ho] at hfl
          obtain ⟨h1, h2, h3, _⟩ := hfl
          exact ⟨h1, by simp [h2, h3, acceptedText]⟩
        | stop w => trivial
    simp only [traceW] at e
    cases ho : op.run env s with
    | stop w => rw [ho] at e; cases e
    | ok s1 =>
      rw [ho] at e hstep
      dsimp only at e
      cases ht : traceW env ops s1 with
      | none => rw [ht] at e; cases e
      | some p =>
        rw [ht] at e
        simp only [Option.map_some, Option.some.injEq, Prod.mk.injEq] at e
        obtain ⟨rfl, rfl⟩ := e
        rw [ih s1 _ _ (fun o h => hops o (by simp [h])) hstep.1 ht, hstep.2]
        simp
    | err x s1 =>
      rw [ho] at e hstep
      dsimp only at e
      cases ht : traceW env ops s1 with
      | none => rw [ht] at e; cases e
      | some p =>
        rw [ht] at e
        simp only [Option.map_some, Option.some.injEq, Prod.mk.injEq] at e
        obtain ⟨rfl, rfl⟩ := e
        rw [ih s1 _ _ (fun o h => hops o (by simp [h])) hstep.1 ht, hstep.2]
        simp

/-- C23, part, for text: without short writes, the bytes received by the device followed by the
pending ones are exactly the texts of the successful writes, in order, whatever their sizes and
however often the operating system interrupts or fails. Missing: short writes. -/
theorem C23_text_partial (env : WEnv) (ops : List WOp) (os : List WriteRes) (s : WS)
    (tr : List (WOp × Bool)) (hops : ∀ op ∈ ops, IsTextCall op) (hos : NoShortWrites os)
    (h : traceW env ops (WS.new os) = some (tr, s)) :
    s.dev ++ s.pending = tr.flatMap acceptedText :=
  text_trace env ops (WS.new os) s tr hops hos h

/-- C23 is false with short writes: after a `write` that takes only the first `n` bytes the code
sends the buffer from its beginning again. The flush succeeds although the device received the
first `n` bytes followed by the first `length - n`. -/
theorem C23_short_write_repeats (s : WS) (n : Nat) (rest : List WriteRes)
    (hn : 0 < n) (hl : n < s.pending.length)
    (hos : s.os = .wrote n :: .wrote (s.pending.length - n) :: rest) :
    flush s = .ok { s with
      os := rest, pending := [],
      dev := s.dev ++ s.pending.take n ++ s.pending.take (s.pending.length - n) } := by
  have hw : writeData s.pending s.os 0 s.dev = .done s.pending.length rest
      (s.dev ++ s.pending.take n ++ s.pending.take (s.pending.length - n)) none := by
    rw [hos]
    unfold writeData
    rw [if_neg (by omega)]
    dsimp only
    rw [if_neg (by omega)]
    unfold writeData
    rw [if_neg (by omega)]
    dsimp only
    rw [if_neg (by omega)]
    have : 0 + min n s.pending.length + min (s.pending.length - n) s.pending.length =
        s.pending.length := by omega
    rw [this]
    unfold writeData
    rw [if_pos rfl]
  unfold flush
  rw [hw]
  dsimp only
  rw [if_neg (by omega)]
  simp

/-- Non-trivial case: "ab" arrives as "aa". -/
example : (runW demoDB [.writeStr [97, 98], .flush] (WS.new [.wrote 1, .wrote 1])).map
    (fun s => (s.dev, s.pending)) = some ([97, 97], []) := by decide

/-- After a short write, if the operating system next takes all it is given, the call can no longer
succeed: its count has passed the length. If an error eventually ends the loop, `flush` panics. -/
theorem C23_short_write_never_succeeds (s : WS) (n : Nat) (rest : List WriteRes)
    (hn : 0 < n) (hl : n < s.pending.length) (hos : s.os = .wrote n :: .all :: rest) :
    flush s = .stop .panic ∨ flush s = .stop .blocked := by
  have hw : writeData s.pending s.os 0 s.dev =
      writeData s.pending rest (n + s.pending.length) (s.dev ++ s.pending.take n ++ s.pending) := by
    rw [hos]
    conv => lhs; unfold writeData
    rw [if_neg (by omega)]
    dsimp only
    rw [if_neg (by omega)]
    conv => lhs; unfold writeData
    rw [if_neg (by omega)]
    dsimp only
    have : 0 + min n s.pending.length = n := by omega
    rw [this]
  have hge : ∀ (os : List WriteRes) (off : Nat) (dev : Bytes) k os' dev' r,
      writeData s.pending os off dev = .done k os' dev' r → off ≤ k := by
    intro os
    induction os with
    | nil =>
      intro off dev k os' dev' r e
      unfold writeData at e
      split at e
      · cases e; exact Nat.le_refl _
      · cases e
    | cons x os ih =>
      intro off dev k os' dev' r e
      unfold writeData at e
      split at e
      · cases e; exact Nat.le_refl _
      · cases x with
        | all => have := ih _ _ _ _ _ _ e; omega
        | wrote j =>
          dsimp only at e
          split at e
          · cases e; exact Nat.le_refl _
          · have := ih _ _ _ _ _ _ e; omega
        | eintr => exact ih _ _ _ _ _ _ e
        | fail => cases e; exact Nat.le_refl _
  unfold flush
  rw [hw]
  cases hd : writeData s.pending rest (n + s.pending.length)
      (s.dev ++ s.pending.take n ++ s.pending) with
  | blocked => right; rfl
  | done k os' dev' r =>
    left
    have := hge _ _ _ _ _ _ _ hd
    dsimp only
    rw [if_pos (by omega)]

example : (Mortal.flush { WS.new [.wrote 1, .all, .fail] with pending := [97, 98] }) =
    .stop .panic := by decide

/-! ## C24 (one writer; see the lock model for several threads) -/

/-- C24. A successful flush leaves no pending output, whatever the operating system did. -/
theorem C24_flush_empties (s s' : WS) (h : flush s = .ok s') : s'.pending = [] := by
  unfold flush at h
  cases hd : writeData s.pending s.os 0 s.dev with
  | blocked => rw [hd] at h; cases h
  | done n os dev r =>
    rw [hd] at h
    dsimp only at h
    split at h
    · cases h
    · cases r with
      | some e => cases h
      | none =>
        cases h
        have := writeData_ok _ _ _ _ _ _ _ hd
        simp [this]

/-- C24. Dropping a write guard, when the device accepts data (after any number of interruptions),
delivers everything pending. -/
theorem C24_drop_flushes (env : WEnv) (s : WS) (k : Nat) (rest : List WriteRes)
    (hos : s.os = List.replicate k .eintr ++ .all :: rest) :
    ∃ s', WOp.sessionEnd.run env s = .ok s' ∧ s'.pending = [] ∧ s'.dev = s.dev ++ s.pending := by
  have hw : ∃ os', writeData s.pending s.os 0 s.dev =
      .done s.pending.length os' (s.dev ++ s.pending) none := by
    rw [hos]
    clear hos
    by_cases hl : 0 = s.pending.length
    · refine ⟨List.replicate k .eintr ++ .all :: rest, ?_⟩
      unfold writeData
      rw [if_pos hl, ← hl, List.eq_nil_of_length_eq_zero hl.symm]
      simp
    · refine ⟨rest, ?_⟩
      induction k with
      | zero =>
        simp only [List.replicate_zero, List.nil_append]
        unfold writeData
        rw [if_neg hl]
        dsimp only
        rw [Nat.zero_add]
        unfold writeData
        rw [if_pos rfl]
      | succ k ih =>
        rw [List.replicate_succ, List.cons_append]
        unfold writeData
        rw [if_neg hl]
        exact ih
  obtain ⟨os', hw⟩ := hw
  have hf : flush s = .ok { s with pending := s.pending.drop s.pending.length, os := os',
                                   dev := s.dev ++ s.pending } := by
    unfold flush
    rw [hw]
    dsimp only
    rw [if_neg (by omega)]
  refine ⟨{ s with pending := s.pending.drop s.pending.length, os := os',
                   dev := s.dev ++ s.pending }, ?_, ?_, ?_⟩
  · simp only [WOp.run]
    rw [hf]
  · simp
  · rfl

example : (runW demoDB [.writeStr [97, 98], .sessionEnd] (WS.new [.eintr, .eintr, .all])).map
    (fun s => (s.dev, s.pending)) = some ([97, 98], []) := by decide

/-! ## C41 -/

/-- C41. On any terminal and in any state, moving by `n` up to `2^32 - 1`: nothing for `n = 0`;
otherwise, if the terminal lacks the capability, a not-supported error without any effect; else one
command is sent, which moves the cursor by exactly `n` in that direction (unless its expansion
fails, which is reported). -/
theorem C41_moves_exactly (env : WEnv) (d : Dir) (n : Nat) (hn : n ≤ 2 ^ 32 - 1) (s : WS) :
    (n = 0 → (d.op n).run env s = .ok s) ∧
    (n ≠ 0 → env.db (d.needs n) = none → (d.op n).run env s = .err .notSupported s) ∧
    (n ≠ 0 → ∀ f, env.db (d.needs n) = some f →
      ∃ ps, shift (.cap (d.needs n) ps) = ((n : Int) * d.vec.1, (n : Int) * d.vec.2) ∧
        ((f ps).2 = true →
          ∃ s', (d.op n).run env s = .ok s' ∧ s'.log = s.log ++ [.cap (d.needs n) ps] ∧
            s'.pending = s.pending ++ (f ps).1) ∧
        ((f ps).2 = false → ∃ s', (d.op n).run env s = .err .expand s')) := by
  have hu : toU32 n = n := by unfold toU32; rw [if_neg (by omega)]
  refine ⟨?_, ?_, ?_⟩
  · rintro rfl
    cases d <;> rfl
  · intro h0 hdb
    by_cases h1 : n = 1
    · subst h1
      cases d <;> simp only [Dir.needs, if_true] at hdb <;>
        simp [Dir.op, WOp.run, moveUp, moveDown, moveLeft, moveRight, expandReq, hdb]
    · cases d <;> simp only [Dir.needs, if_neg h1] at hdb <;>
        simp [Dir.op, WOp.run, moveUp, moveDown, moveLeft, moveRight, expandReq, hdb, h0, h1]
  · intro h0 f hdb
    by_cases h1 : n = 1
    · subst h1
      cases d
      case down =>
        refine ⟨[1], by simp [Dir.needs, shift, Dir.vec], fun hg => ?_, fun hg => ?_⟩ <;>
        simp only [Dir.needs] at hdb <;>
        simp [Dir.op, WOp.run, moveDown, expandReq, hdb, expand, hu, hg, Dir.needs]
      all_goals
        refine ⟨[], by simp [Dir.needs, shift, Dir.vec], fun hg => ?_, fun hg => ?_⟩ <;>
        simp only [Dir.needs, if_true] at hdb <;>
        simp [Dir.op, WOp.run, moveUp, moveLeft, moveRight, expandReq, hdb, expand, hg, Dir.needs]
    · refine ⟨[n], ?_, fun hg => ?_, fun hg => ?_⟩
      · cases d <;> simp [Dir.needs, shift, Dir.vec, h1]
      · cases d <;> simp only [Dir.needs, if_neg h1] at hdb <;>
        simp [Dir.op, WOp.run, moveUp, moveDown, moveLeft, moveRight, expandReq, hdb, expand, hu,
          hg, Dir.needs, h0, h1]
      · cases d <;> simp only [Dir.needs, if_neg h1] at hdb <;>
        simp [Dir.op, WOp.run, moveUp, moveDown, moveLeft, moveRight, expandReq, hdb, expand, hu,
          hg, h0, h1]

/-- Above `2^32 - 1` the distance saturates: the same command is sent as for `2^32 - 1`. -/
theorem C41_saturates (env : WEnv) (d : Dir) (n : Nat) (hn : n > 2 ^ 32 - 1) (s : WS) :
    (d.op n).run env s = (d.op (2 ^ 32 - 1)).run env s := by
  have h1 : toU32 n = 2 ^ 32 - 1 := by unfold toU32; rw [if_pos hn]
  have h2 : toU32 (2 ^ 32 - 1) = 2 ^ 32 - 1 := by decide
  have h3 : n ≠ 1 := by omega
  have h4 : n ≠ 0 := by omega
  cases d <;> simp only [Dir.op, WOp.run, moveUp, moveDown, moveLeft, moveRight, h1, h2] <;>
    simp [h3, h4]

example : (runW demoDB [.moveUp 5] (WS.new [])).map (fun s => (s.log, s.pending)) =
    some ([.cap .parmUp [5]], [27, 65, 5]) := by decide
example : (WOp.moveLeft 7).run bareDB (WS.new []) = .err .notSupported (WS.new []) := by decide

end Mortal
