import Verif.Lemmas.WinHandlesEnds
import Verif.Props.WinSession

/-! # C76: the handles a program uses on Windows

For the whole life of a terminal, and of the screen made of it, whatever is called and whatever the
console answers. -/

namespace Mortal
open Spec

/-- **C76.** A terminal and its screen give the console only handles that are open at that moment, close
only what they made and never after it was closed, and have at most one screen buffer open. Missing:
that this is so when `GetStdHandle` or `CreateConsoleScreenBuffer` fails with the invalid handle, and
that all is closed in the end: see the other theorems. -/
theorem C76_handles_partial {u : UEnv} {out : Nat} {ops : List SigOp}
    {scr : Option (PrepareConfig × List ScrUse)} {s s' : WinSt}
    (h : wholeLife u out ops scr s = some s') :
    ∃ D, s'.log = s.log ++ D ∧
      (NeverInvalid D → ∃ k, Handles.nothing.follow D = some k ∧ k.own.length ≤ 1) := by
  obtain ⟨D, k, e, f, hk⟩ := life_cases h
  refine ⟨D, e, fun hv => ⟨k, by rw [follow_valid hv]; exact f, ?_⟩⟩
  rcases hk with hk | ⟨_, _, g, _, _, _, hk, _⟩ <;> simp [hk]

/-- **C76.** A screen buffer is left open in the end only if, after it was made, a call failed that was
needed for opening the screen entirely or for leaving it: one on its own mode or that of the input, on
the control handler, for showing the terminal's own buffer (the standard handle) again, or for closing
the buffer. -/
theorem C76_left_open {u : UEnv} {out : Nat} {ops : List SigOp}
    {scr : Option (PrepareConfig × List ScrUse)} {s s' : WinSt} {D : List WEv} {k : Handles}
    (h : wholeLife u out ops scr s = some s') (hD : s'.log = s.log ++ D) (hv : NeverInvalid D)
    (hk : Handles.nothing.follow D = some k) (ho : k.own ≠ []) :
    ∃ inH old b A B c, k.own = [b] ∧ D = A ++ .call .create (.handle b) :: B ∧
      .call (.getStd 0) (.handle inH) ∈ A ∧ .call (.getStd out) (.handle old) ∈ A ∧
      Needed inH old b c ∧ .call c .fail ∈ B := by
  obtain ⟨D', k', e, f, hk'⟩ := life_cases h
  have hDD : D' = D := List.append_cancel_left (e.symm.trans hD)
  subst hDD
  rw [follow_valid hv, f] at hk
  cases hk
  exact hk'.resolve_left ho

/-- **C76.** So when no call of the console fails everything made is closed in the end. -/
theorem C76_all_closed {u : UEnv} {out : Nat} {ops : List SigOp}
    {scr : Option (PrepareConfig × List ScrUse)} {s s' : WinSt} {D : List WEv}
    (h : wholeLife u out ops scr s = some s') (hD : s'.log = s.log ++ D) (hv : NeverInvalid D)
    (hf : ∀ c, .call c .fail ∉ D) :
    ∃ k, Handles.nothing.follow D = some k ∧ k.own = [] := by
  obtain ⟨D', e, hh⟩ := C76_handles_partial h
  have hDD : D' = D := List.append_cancel_left (e.symm.trans hD)
  subst hDD
  obtain ⟨k, hk, -⟩ := hh hv
  refine ⟨k, hk, Classical.byContradiction fun ho => ?_⟩
  obtain ⟨_, _, b, A, B, c, _, hD', _, _, _, hm⟩ := C76_left_open h hD hv hk ho
  exact hf c (by rw [hD']; exact List.mem_append_right _ (List.mem_cons_of_mem _ hm))

/-- The answers to `Terminal::new`. -/
def lifeStart : List ConStep :=
  [⟨[], .handle 1⟩, ⟨[], .handle 2⟩, ⟨[], .info sessInfo⟩, ⟨[], .mode 3⟩, ⟨[], .ok⟩]

/-- **C76.** Not everything is closed: when the last step of `Screen::new` fails, its buffer stays open,
although every handle used was open. -/
theorem C76_leaked :
    ∃ s' k, wholeLife demoEnv 1 [] (some (winCfg .new false false, []))
        (demoSt (lifeStart ++ sessEnterOs ++ [⟨[], .fail⟩, ⟨[], .ok⟩, ⟨[], .ok⟩])) = some s' ∧
      NeverInvalid s'.log ∧ Handles.nothing.follow s'.log = some k ∧ k.own = [3] := by
  refine ⟨{ demoSt [] with
      outH := 3
      log := [.call (.getStd 0) (.handle 1), .call (.getStd 1) (.handle 2),
        .call (.getInfo 2) (.info sessInfo), .call (.getMode 2) (.mode 3), .call (.setMode 2 3) .ok] ++
        sessEnter ++ [.call (.setMode 1 0x1A8) .fail, .call (.setCursorInfo 3 25 true) .ok,
        .call (.setMode 3 3) .ok] }, ⟨[2, 1], [3]⟩, by decide +kernel, ?_, by decide +kernel, rfl⟩
  intro c h hm
  simp [sessEnter] at hm
  rcases hm with ⟨_, rfl⟩ | ⟨_, rfl⟩ | ⟨_, rfl⟩ <;> decide

/-- **C76.** `CreateConsoleScreenBuffer` fails with the invalid handle, not with the null handle: then the
code goes on to use that handle, and to close it. -/
theorem C76_invalid_used :
    ∃ s', wholeLife demoEnv 1 [] (some (winCfg .new false false, []))
        (demoSt (lifeStart ++ [⟨[], .info sessInfo⟩, ⟨[], .info sessInfo⟩, ⟨[], .handle invalidHandle⟩,
          ⟨[], .fail⟩, ⟨[], .fail⟩, ⟨[], .ok⟩, ⟨[], .ok⟩])) = some s' ∧
      Handles.nothing.follow s'.log = none ∧
      .call (.setBufSize invalidHandle ⟨3, 2⟩) .fail ∈ s'.log ∧
      .call (.close invalidHandle) .fail ∈ s'.log := by
  refine ⟨{ demoSt [] with
      log := [.call (.getStd 0) (.handle 1), .call (.getStd 1) (.handle 2),
        .call (.getInfo 2) (.info sessInfo), .call (.getMode 2) (.mode 3), .call (.setMode 2 3) .ok,
        .call (.getInfo 2) (.info sessInfo), .call (.getInfo 2) (.info sessInfo),
        .call .create (.handle invalidHandle), .call (.setBufSize invalidHandle ⟨3, 2⟩) .fail,
        .call (.close invalidHandle) .fail, .call (.setCursorInfo 2 25 true) .ok,
        .call (.setMode 2 3) .ok] }, by decide +kernel, by decide +kernel, by simp, by simp⟩

/-- A terminal is made and used, then a screen, which is used and dropped: everything is closed. -/
example : ∃ s', wholeLife demoEnv 1 [.cursorMode .invisible]
    (some (winCfg .new false false, [.plain (.setCursorMode .normal)]))
      (demoSt (lifeStart ++ [⟨[], .ok⟩] ++ sessEnterOs ++ [⟨[], .ok⟩, ⟨[], .ok⟩,
        ⟨[], .ok⟩, ⟨[], .ok⟩, ⟨[], .ok⟩, ⟨[], .ok⟩, ⟨[], .ok⟩])) = some s' ∧
    NeverInvalid s'.log ∧ (∀ c, .call c .fail ∉ s'.log) ∧ s'.log.length = 21 := by
  refine ⟨{ demoSt [] with
      log := [.call (.getStd 0) (.handle 1), .call (.getStd 1) (.handle 2),
        .call (.getInfo 2) (.info sessInfo), .call (.getMode 2) (.mode 3), .call (.setMode 2 3) .ok,
        .call (.setCursorInfo 2 1 false) .ok] ++
        sessEnter ++ [.call (.setMode 1 0x1A8) .ok, .call (.setCursorInfo 3 25 true) .ok,
        .call (.setMode 1 0x1F7) .ok, .call (.setActive 2) .ok, .call (.close 3) .ok,
        .call (.setCursorInfo 2 25 true) .ok, .call (.setMode 2 3) .ok] },
    by decide +kernel, ?_, by simp [sessEnter], by decide⟩
  intro c h hm
  simp [sessEnter] at hm
  rcases hm with ⟨_, rfl⟩ | ⟨_, rfl⟩ | ⟨_, rfl⟩ <;> decide

end Mortal
