import Verif.Lemmas.WinAttr
import Verif.Spec.WinMode

/-! # C50: text written to a Windows console arrives exactly once -/

namespace Mortal
open Spec

/-- **C50.** When `write_str` succeeds, the console has accepted exactly the text, in UTF-16 and in
order, whatever the pieces it accepted at a time and whatever else happened in between; nothing else
was asked of the console, and the attributes the terminal keeps are as before. -/
theorem C50_written (text : List Char) (s s' : WinSt) (D : List WEv)
    (h : winWriteStr text s = .ok () s') (hl : s'.log = s.log ++ D) (hh : HonestWrites D) :
    decode16 (accepted s.outH D) = some (text, []) ∧ OnlyWrites s.outH D ∧
      s'.theme = s.theme ∧ s'.outH = s.outH := by
  obtain ⟨D', g1, g2, g3, g4⟩ := (writeLoop_log s.outH s.os.length (text.flatMap encodeUtf16) s).1 s' h
  rw [g1] at hl
  have := List.append_cancel_left hl
  subst this
  rw [g4 hh, decode16_text]
  exact ⟨rfl, g2, g3.theme, g3.outH⟩

/-- **C50.** When `write_str` fails, the console has refused a call, the first one it refused; nothing
was sent after that, and what it had accepted until then is a beginning of the text. -/
theorem C50_failed (text : List Char) (s s' : WinSt) (D : List WEv) (e : IoErr)
    (h : winWriteStr text s = .err e s') (hl : s'.log = s.log ++ D) (hh : HonestWrites D) :
    ∃ D0 us rest, D = D0 ++ [.call (.write s.outH us) .fail] ∧ OnlyWrites s.outH D0 ∧ e = .os ∧
      decode16 (accepted s.outH D ++ rest) = some (text, []) := by
  obtain ⟨D0, us, g1, g2, g3, g4, g5⟩ :=
    (writeLoop_log s.outH s.os.length (text.flatMap encodeUtf16) s).2 e s' h
  rw [g1, List.append_assoc] at hl
  have := List.append_cancel_left hl
  subst this
  obtain ⟨rest, hr⟩ := g5 fun a b c hm => hh a b c (by simp [hm])
  refine ⟨D0, us, rest, rfl, g2, g4, ?_⟩
  have e1 : accepted s.outH (D0 ++ [.call (.write s.outH us) .fail]) = accepted s.outH D0 := by
    rw [accepted_append]
    exact List.append_nil _
  rw [e1, hr, decode16_text]

/-- **C50.** `write_str` returns: as long as every call makes some progress, it needs no more calls
than the text has units. -/
theorem C50_returns (text : List Char) (s : WinSt) (hp : SomeProgress s.os)
    (hn : ∀ us, decode16 us = some (text, []) → us.length ≤ s.os.length) :
    ∃ s', winWriteStr text s = .ok () s' :=
  writeLoop_total s.outH s.os.length _ s rfl (hn _ (decode16_text text)) hp

/-- **C50.** The property is false of consoles that accept no units without reporting an error:
`write_str` then never returns, however long it is left to try. -/
theorem C50_no_progress (text : List Char) (ht : text ≠ []) (s : WinSt)
    (h : ∀ st ∈ s.os, st.ans = .wrote 0) : winWriteStr text s = .stop .blocked := by
  refine writeLoop_zero s.outH s.os.length _ s rfl ?_ h
  intro e
  have := decode16_text text
  rw [e, decode16_nil] at this
  cases this
  exact ht rfl

/-- **C50.** The text appears on the screen as if it had been given to the console all at once, also
when surrogate pairs are split between two calls. -/
theorem C50_shown (u : UEnv) (k : Nat) (text : List Char) (s s' : WinSt) (D : List WEv) (c : Con)
    (o o' : OutBuf) (ho : c.outs s.outH = some o) (hp : o.pend = [])
    (ht : o.putText u text = some o') (h : winWriteStr text s = .ok () s')
    (hl : s'.log = s.log ++ D) (hr : c.Runs u k D) :
    ∃ c', c.play u k D = some c' ∧ c'.outs s.outH = some o' ∧
      (∀ j, j ≠ s.outH → c'.outs j = c.outs j) ∧ c'.inMode = c.inMode ∧ c'.active = c.active := by
  obtain ⟨c', e1, ⟨q, rfl⟩, -⟩ := (does_writeStr (k := k) c s o o' text ho hp ht).ok s c (.refl c s) () s' D h hl hr
  refine ⟨_, e1, setOut_outs c _ _, fun j hj => ?_, rfl, rfl⟩
  show (if j = s.outH then _ else _) = _
  rw [if_neg hj]

theorem setAttributes_log {t : WTerm} {th : Theme} {s s' : WinSt}
    (h : winSetAttributes t th s = .ok () s') : ∃ D, s'.log = s.log ++ D ∧ s'.theme = th ∧
      s'.outH = s.outH ∧ (∀ c a, WEv.call c a ∈ D → c = .setAttr s.outH (themeWord t th)) ∧
      (s.theme ≠ th → WEv.call (.setAttr s.outH (themeWord t th)) .ok ∈ D) := by
  unfold winSetAttributes at h
  simp only [sm_bind, sm_get] at h
  split at h
  · simp only [sm_bind, sm_modify] at h
    unfold updateAttrs boolCall at h
    simp only [sm_bind, sm_get] at h
    cases hc : conCall (.setAttr s.outH (attrWord t.defAttrs th.fg th.bg th.style))
        { s with theme := th } with
    | stop w => rw [hc] at h; cases h
    | err e s1 => exact absurd hc conCall_not_err
    | ok a s1 =>
      rw [hc] at h
      obtain ⟨evs, h1, h2, h3, -⟩ := conCall_ok hc
      cases a <;> cases h
      refine ⟨evs ++ [.call (.setAttr s.outH (themeWord t th)) .ok], ?_, h3.theme, h3.outH, ?_,
        fun _ => by simp⟩
      · rw [h2, List.append_assoc]; rfl
      · intro c a hm
        rcases List.mem_append.mp hm with hm | hm
        · exact (h1 _ hm).elim
        · simp only [List.mem_singleton, WEv.call.injEq] at hm; exact hm.1
  · rename_i hn
    cases h
    exact ⟨[], by simp, by simpa using hn, rfl, fun _ _ hm => (by cases hm), fun hc => absurd hc hn⟩

/-- **C50.** `write_styled` sends the text exactly once, all of it after the attributes have been set
and before they are cleared again; the words it sets look as wanted, and afterwards the terminal
takes no attributes to be in effect. -/
theorem C50_styled (t : WTerm) (th : Theme) (text : List Char) (s s' : WinSt) (D : List WEv)
    (h : winWriteStyled t th text s = .ok () s') (hl : s'.log = s.log ++ D) (hh : HonestWrites D) :
    ∃ A T B, D = A ++ T ++ B ∧ decode16 (accepted s.outH T) = some (text, []) ∧
      OnlyWrites s.outH T ∧
      (∀ c a, WEv.call c a ∈ A → ∃ w, c = .setAttr s.outH w ∧
        lookOf w = wantedLook t.defAttrs th.fg th.bg th.style) ∧
      (∀ c a, WEv.call c a ∈ B → ∃ w, c = .setAttr s.outH w ∧ lookOf w = lookOf t.defAttrs) ∧
      (s.theme ≠ th → ∃ w, WEv.call (.setAttr s.outH w) .ok ∈ A) ∧
      (th ≠ ⟨none, none, .empty⟩ → ∃ w, WEv.call (.setAttr s.outH w) .ok ∈ B) ∧
      s'.theme = ⟨none, none, .empty⟩ := by
  unfold winWriteStyled at h
  simp only [sm_bind] at h
  cases h1 : winSetAttributes t th s with
  | stop w => rw [h1] at h; cases h
  | err e s1 => rw [h1] at h; cases h
  | ok a s1 =>
    rw [h1] at h; dsimp only at h
    cases h2 : winWriteStr text s1 with
    | stop w => rw [h2] at h; cases h
    | err e s2 => rw [h2] at h; cases h
    | ok a s2 =>
      rw [h2] at h; dsimp only at h
      obtain ⟨A, a1, a2, a3, a4, a5⟩ := setAttributes_log h1
      obtain ⟨T, t1⟩ := ((writeLoop_log s1.outH s1.os.length (text.flatMap encodeUtf16) s1).1 s2 h2)
      obtain ⟨B, b1, b2, b3, b4, b5⟩ := setAttributes_log h
      have hD : D = A ++ T ++ B := by
        rw [b1, t1.1, a1] at hl
        simp only [List.append_assoc] at hl ⊢
        exact (List.append_cancel_left hl).symm
      subst hD
      obtain ⟨w1, w2, w3, w4⟩ := C50_written text s1 s2 T h2 t1.1
        (fun a b c hm => hh a b c (by simp [hm]))
      rw [a3] at w1 w2 w4
      rw [w4] at b4 b5
      refine ⟨A, T, B, rfl, w1, w2, fun c a hm => ⟨_, a4 c a hm, look_attrWord _ _ _ _⟩,
        fun c a hm => ⟨_, b4 c a hm, by rw [themeWord_plain]⟩, fun hn => ⟨_, a5 hn⟩,
        fun hn => ⟨_, b5 (by rw [w3, a2]; exact hn)⟩, b2⟩

/-- Two letters and a character beyond the basic plane, accepted in four pieces; the surrogate pair is
split. -/
def piecesSt : WinSt :=
  demoSt [{ ans := .wrote 1 }, { haps := [.input wakeRecord], ans := .wrote 2 }, { ans := .wrote 0 },
    { ans := .wrote 1 }]

example : ∃ s', winWriteStr ['a', 'b', Char.ofNat 0x1F600] piecesSt = .ok () s' ∧
    HonestWrites s'.log ∧ accepted 2 s'.log = [97, 98, 0xD83D, 0xDE00] := by
  refine ⟨{ piecesSt with os := [], log := [
      .call (.write 2 [97, 98, 0xD83D, 0xDE00]) (.wrote 1), .input wakeRecord,
      .call (.write 2 [98, 0xD83D, 0xDE00]) (.wrote 2), .call (.write 2 [0xDE00]) (.wrote 0),
      .call (.write 2 [0xDE00]) (.wrote 1)] }, by decide +kernel, ?_, by decide +kernel⟩
  intro h us n hm
  simp only [List.mem_cons, WEv.call.injEq, ConCall.write.injEq, Ans.wrote.injEq, reduceCtorEq,
    List.not_mem_nil, or_false, false_or] at hm
  rcases hm with ⟨⟨-, rfl⟩, rfl⟩ | ⟨⟨-, rfl⟩, rfl⟩ | ⟨⟨-, rfl⟩, rfl⟩ | ⟨⟨-, rfl⟩, rfl⟩ <;> decide

example : SomeProgress [{ ans := .wrote 1 }, { ans := .wrote 3 }] := by
  intro st h
  simp only [List.mem_cons, List.not_mem_nil, or_false] at h
  rcases h with rfl | rfl
  · exact ⟨1, by decide, rfl⟩
  · exact ⟨3, by decide, rfl⟩

/-- A call refused after the first unit. -/
example : ∃ s', winWriteStr ['a', 'b'] (demoSt [{ ans := .wrote 1 }, { ans := .fail }]) =
    .err .os s' ∧ accepted 2 s'.log = [97] :=
  ⟨{ demoSt [] with log := [.call (.write 2 [97, 98]) (.wrote 1), .call (.write 2 [98]) .fail] },
    by decide +kernel, by decide +kernel⟩

/-- Styled text. -/
example : ∃ s', winWriteStyled demoTerm ⟨some .red, none, .empty⟩ ['a']
    (demoSt [{ ans := .ok }, { ans := .wrote 1 }, { ans := .ok }]) = .ok () s' :=
  ⟨{ demoSt [] with log := [.call (.setAttr 2 4) .ok, .call (.write 2 [97]) (.wrote 1),
      .call (.setAttr 2 7) .ok] }, by decide +kernel⟩

end Mortal
