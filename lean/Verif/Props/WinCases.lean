import Verif.Props.WinErase
import Verif.Props.WinText
import Verif.Props.WinAttr
import Verif.Props.ScreenGuard

/-!
# Cases for theorems about calls of the Windows console

Concrete cases that meet the hypotheses of theorems of C50, C53, C54 and C56 about calls that fail, and
of some others; to each the theorem is applied.
-/

namespace Mortal
open Spec

/-- `possibleB` with some more answers. -/
def possibleMore (k : Nat) (c : Con) : WEv → Bool
  | .call (.fillChar _ _ _ _) .fail => true
  | .call (.getStd _) (.handle _) => true
  | e => possibleB k c e

theorem possibleMore_sound {k : Nat} {c : Con} {e : WEv} (h : possibleMore k c e = true) : c.Possible k e := by
  unfold possibleMore at h
  split at h
  · exact Or.inl rfl
  · exact ⟨_, rfl⟩
  · exact possibleB_sound h

/-- The console after a record, if the record passes the check. -/
def checkMore (u : UEnv) (k : Nat) : List WEv → Con → Option Con
  | [], c => some c
  | e :: l, c => if possibleMore k c e then (c.step u k e).bind (checkMore u k l) else none

theorem checkMore_sound {u : UEnv} {k : Nat} : ∀ (l : List WEv) (c c' : Con),
    checkMore u k l c = some c' → c.Runs u k l
  | [], _, _, _ => trivial
  | e :: l, c, c', h => by
    unfold checkMore at h
    split at h
    · rename_i hb
      rw [Option.bind_eq_some_iff] at h
      obtain ⟨c1, h1, h2⟩ := h
      refine ⟨possibleMore_sound hb, fun c2 h3 => ?_⟩
      rw [h1, Option.some.injEq] at h3
      rw [← h3]
      exact checkMore_sound l c1 c' h2
    · cases h

/-- A call that fails on a console, which may have done so. -/
def failsOn {α : Type} (m : WM α) (os : List ConStep) (c : Con) : Bool :=
  match m (demoSt os) with
  | .err _ s' => (checkMore demoEnv 1 s'.log c).isSome
  | _ => false

theorem failsOn_sound {α : Type} {m : WM α} {os : List ConStep} {c : Con} (h : failsOn m os c = true) :
    ∃ e s', m (demoSt os) = .err e s' ∧ c.Runs demoEnv 1 s'.log := by
  unfold failsOn at h
  split at h
  · rename_i e s' hm
    obtain ⟨c', hc⟩ := Option.isSome_iff_exists.mp h
    exact ⟨e, s', hm, checkMore_sound _ _ _ hc⟩
  · cases h

/-- A call that returns a value on a console, which may have answered so. -/
def worksOn {α : Type} (m : WM α) (os : List ConStep) (c : Con) : Bool :=
  match m (demoSt os) with
  | .ok _ s' => (checkMore demoEnv 1 s'.log c).isSome
  | _ => false

theorem worksOn_sound {α : Type} {m : WM α} {os : List ConStep} {c : Con} (h : worksOn m os c = true) :
    ∃ a s', m (demoSt os) = .ok a s' ∧ c.Runs demoEnv 1 s'.log := by
  unfold worksOn at h
  split at h
  · rename_i a s' hm
    obtain ⟨c', hc⟩ := Option.isSome_iff_exists.mp h
    exact ⟨a, s', hm, checkMore_sound _ _ _ hc⟩
  · cases h

/-- `C54_move_failed`: the console tells the position of the cursor and then refuses to move it, or
refuses at once; a record comes in the meantime. -/
example :
    (∃ e s' c', MoveCmd.run (.up 1) (demoSt [⟨[.input .other], .info (textInfo 4 1 0 1)⟩, ⟨[], .fail⟩]) = .err e s' ∧
      (textCon (textOut 4 1 1 0 1)).play demoEnv 1 s'.log = some c' ∧ OnlyQueue (textCon (textOut 4 1 1 0 1)) c') ∧
    (∃ e s' c', MoveCmd.run (.to ⟨9, 9⟩) (demoSt [⟨[], .fail⟩]) = .err e s' ∧
      (textCon (textOut 4 1 1 0 1)).play demoEnv 1 s'.log = some c' ∧ OnlyQueue (textCon (textOut 4 1 1 0 1)) c') := by
  constructor
  · obtain ⟨e, s', h1, h2⟩ := failsOn_sound (m := MoveCmd.run (.up 1))
      (os := [⟨[.input .other], .info (textInfo 4 1 0 1)⟩, ⟨[], .fail⟩]) (c := textCon (textOut 4 1 1 0 1))
      (by decide +kernel)
    obtain ⟨c', h3, h4⟩ := C54_move_failed demoEnv 1 _ _ s' _ (textOut 4 1 1 0 1) e s'.log rfl
      (by unfold BufSize; decide) h1 rfl h2
    exact ⟨e, s', c', h1, h3, h4⟩
  · obtain ⟨e, s', h1, h2⟩ := failsOn_sound (m := MoveCmd.run (.to ⟨9, 9⟩))
      (os := [⟨[], .fail⟩]) (c := textCon (textOut 4 1 1 0 1)) (by decide +kernel)
    obtain ⟨c', h3, h4⟩ := C54_move_failed demoEnv 1 _ _ s' _ (textOut 4 1 1 0 1) e s'.log rfl
      (by unfold BufSize; decide) h1 rfl h2
    exact ⟨e, s', c', h1, h3, h4⟩

/-- `C54_erase_failed`: the second of the two calls that erase is refused. -/
example : ∃ e s' c', winClearToScreenEnd demoTerm
      (demoSt [⟨[], .info (textInfo 4 0 0 1)⟩, ⟨[], .ok⟩, ⟨[], .fail⟩]) = .err e s' ∧
    (textCon (textOut 4 1 0 0 1)).play demoEnv 1 s'.log = some c' ∧
    (OnlyQueue (textCon (textOut 4 1 0 0 1)) c' ∨ ∃ o' p,
      OnlyBuffer 2 (textCon (textOut 4 1 0 0 1)) c' (textOut 4 1 0 0 1) o' ∧ CursorIn (textOut 4 1 0 0 1) p ∧
        Recoloured (RestOfScreen p) demoTerm.defAttrs (textOut 4 1 0 0 1) o') := by
  obtain ⟨e, s', h1, h2⟩ := failsOn_sound (m := winClearToScreenEnd demoTerm)
    (os := [⟨[], .info (textInfo 4 0 0 1)⟩, ⟨[], .ok⟩, ⟨[], .fail⟩]) (c := textCon (textOut 4 1 0 0 1))
    (by decide +kernel)
  obtain ⟨c', h3, h4⟩ := (C54_erase_failed demoEnv 1 demoTerm _ s' _ (textOut 4 1 0 0 1) e s'.log (by decide) rfl
    (by unfold BufSize; decide) rfl h2).2 h1
  exact ⟨e, s', c', h1, h3, h4⟩

/-- `C54_size`. -/
example : ∃ s' c', winSize (demoSt [⟨[.input .other], .info (textInfo 4 1 0 1)⟩]) = .ok ⟨4, 2⟩ s' ∧
    (textCon (textOut 4 1 1 0 1)).play demoEnv 1 s'.log = some c' ∧ OnlyQueue (textCon (textOut 4 1 1 0 1)) c' := by
  obtain ⟨z, s', h1, h2⟩ := worksOn_sound (m := winSize)
    (os := [⟨[.input .other], .info (textInfo 4 1 0 1)⟩]) (c := textCon (textOut 4 1 1 0 1)) (by decide +kernel)
  obtain ⟨rfl, c', h3, h4⟩ := C54_size demoEnv 1 _ s' _ (textOut 4 1 1 0 1) z s'.log rfl
    (by unfold BufSize; decide) h1 rfl h2
  exact ⟨s', c', h1, h3, h4⟩

/-- `C50_shown`: a letter, and a character of two units that are sent one by one. -/
example : ∃ s' c' o', winWriteStr ['a', Char.ofNat 0x1F600]
      (demoSt [⟨[], .wrote 2⟩, ⟨[.input .other], .wrote 1⟩]) = .ok () s' ∧
    demoOut.putText demoEnv ['a', Char.ofNat 0x1F600] = some o' ∧
    demoCon.play demoEnv 1 s'.log = some c' ∧ c'.outs 2 = some o' := by
  obtain ⟨_, s', h1, h2⟩ := worksOn_sound (m := winWriteStr ['a', Char.ofNat 0x1F600])
    (os := [⟨[], .wrote 2⟩, ⟨[.input .other], .wrote 1⟩]) (c := demoCon) (by decide +kernel)
  have hp : (demoOut.putText demoEnv ['a', Char.ofNat 0x1F600]).isSome = true := by decide +kernel
  obtain ⟨o', ho⟩ := Option.isSome_iff_exists.mp hp
  obtain ⟨c', h3, h4, -⟩ := C50_shown demoEnv 1 _ _ s' s'.log demoCon demoOut o' rfl rfl ho h1 rfl h2
  exact ⟨s', c', o', h1, ho, h3, h4⟩

/-- `C53_new`: standard output has the handle 2. -/
example : ∃ t s' c', winNew 2 (demoSt [⟨[], .handle 1⟩, ⟨[], .handle 2⟩,
      ⟨[], .info ⟨⟨3, 2⟩, ⟨0, 0⟩, 7, ⟨0, 0, 2, 1⟩⟩⟩, ⟨[], .mode 3⟩, ⟨[], .ok⟩]) = .ok t s' ∧
    demoCon.play demoEnv 1 s'.log = some c' ∧ InEffect t c' s'.outH ⟨none, none, .empty⟩ := by
  have hk : (match winNew 2 (demoSt [⟨[], .handle 1⟩, ⟨[], .handle 2⟩,
      ⟨[], .info ⟨⟨3, 2⟩, ⟨0, 0⟩, 7, ⟨0, 0, 2, 1⟩⟩⟩, ⟨[], .mode 3⟩, ⟨[], .ok⟩]) with
    | .ok _ s' => decide (s'.outH = 2)
    | _ => false) = true := by decide +kernel
  obtain ⟨t, s', h1, h2⟩ := worksOn_sound (m := winNew 2) (os := [⟨[], .handle 1⟩, ⟨[], .handle 2⟩,
    ⟨[], .info ⟨⟨3, 2⟩, ⟨0, 0⟩, 7, ⟨0, 0, 2, 1⟩⟩⟩, ⟨[], .mode 3⟩, ⟨[], .ok⟩]) (c := demoCon) (by decide +kernel)
  rw [h1] at hk
  have hk : s'.outH = 2 := of_decide_eq_true hk
  obtain ⟨c', h3, h4, h5⟩ := C53_new demoEnv 1 2 _ s' t demoCon s'.log h1 rfl h2 (by rw [hk]; decide)
  rw [h4] at h5
  exact ⟨t, s', c', h1, h3, h5⟩

/-- `C53_failed`: the second of three calls is refused; red stays in effect. -/
example : ∃ e s' c' a op b, runAttrs demoTerm [.fg (some .red), .add .BOLD, .bg (some .black)]
      (demoSt [⟨[], .ok⟩, ⟨[.input .other], .fail⟩]) = .err e s' ∧
    demoCon.play demoEnv 1 s'.log = some c' ∧
    [AttrOp.fg (some .red), .add .BOLD, .bg (some .black)] = a ++ op :: b ∧
    ∀ th, Become (demoSt []).theme a th → InEffect demoTerm c' 2 th := by
  obtain ⟨e, s', h1, h2⟩ := failsOn_sound
    (m := runAttrs demoTerm [.fg (some .red), .add .BOLD, .bg (some .black)])
    (os := [⟨[], .ok⟩, ⟨[.input .other], .fail⟩]) (c := demoCon) (by decide +kernel)
  obtain ⟨c', a, op, b, h3, -, h4, h5⟩ := C53_failed demoEnv 1 demoTerm _ _ s' demoCon s'.log e
    ⟨demoOut, rfl, by decide +kernel⟩ h1 rfl h2
  exact ⟨e, s', c', a, op, b, h1, h3, h4, fun th h => (h5 th h).1⟩

/-- `C56_win_refresh_call_error`: the console refuses the first write and grants the rest; and
`C56_win_drop_after_error`, of the refresh that failed. -/
example :
    let x := (showOpen [⟨[], .ok⟩, ⟨[], .fail⟩, ⟨[], .ok⟩, ⟨[], .wrote 1⟩, ⟨[], .ok⟩]).s
    let b := (runOps demoEnv [.writeAt ⟨1, 1⟩ ['b'], .setCursor ⟨0, 0⟩] x.buf).getD x.buf
    (match wsRefresh demoEnv demoTerm { x with buf := b } with
    | .err _ x1 =>
      match wsRefresh demoEnv demoTerm x1 with
      | .ok _ x2 => decide (x2.w.log.length > x1.w.log.length)
      | _ => false
    | _ => false) = true := by decide +kernel

/-- `C56_refresh_call_error`: the device fails once. -/
example :
    let s := (demoSess ⟨1, 4⟩ [.fail, .all, .all]).s
    let b := (runOps demoEnv [.writeAt ⟨0, 0⟩ ['a']] s.buf).getD s.buf
    (match Scr.refresh demoEnv demoDB { s with buf := b } with
    | .err _ s1 =>
      match s1.refresh demoEnv demoDB with
      | .ok s2 => decide (s2.w.dev.length > s1.w.dev.length)
      | _ => false
    | _ => false) = true := by decide +kernel

end Mortal
