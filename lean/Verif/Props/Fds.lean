import Verif.Lemmas.Fds

/-! # C66: file descriptors -/

namespace Mortal
open Spec

/-- **C66.** Whatever a program does with terminals, screens and files of its own, and whatever descriptors
the system chooses: every call on a terminal reads from and writes to the file of that terminal; the
descriptors the process has inherited, and those the program has opened and not closed, refer to the
files they did; and of the files opened since the start, those are open that the program has opened and
not closed, those of terminals not dropped, and those of terminals whose drop panicked, each of them as
one descriptor. -/
theorem C66_files (std : Nat → Nat) (inherited : Nat → Option Nat) (n : Nat) (hs : Starts std inherited n)
    (ops : List FdOp) (hl : AllLawful std ops (fdStart inherited n) (noHoldings n)) (s : FdSt)
    (rs : List (Option (Option Nat))) (hr : runFd ops (fdStart inherited n) = (s, rs)) (h : Holdings)
    (ts : List (Option (Option Nat))) (hh : Holdings.run std ops (noHoldings n) = (h, ts)) :
    rs = ts ∧ (∀ i f, inherited i = some f → s.tab i = some f) ∧
    (∀ i f, (i, f) ∈ h.files → s.tab i = some f) ∧
    (∀ f, n ≤ f → ((∃ i, s.tab i = some f) ↔ h.Has f)) ∧
    ∀ i j f, n ≤ f → s.tab i = some f → s.tab j = some f → i = j := by
  obtain ⟨v, e⟩ := fd_run hs ops _ _ (fd_init hs) hl
  rw [hr, hh] at v e
  refine ⟨e, v.kept, fun i f x => (v.files i f x).1, fun f hf => ⟨?_, ?_⟩, v.inj⟩
  · rintro ⟨i, x⟩
    rcases v.all i f x with y | y | ⟨j, y⟩ | y
    · have := hs.2 i f y
      omega
    · exact Or.inl ⟨i, y⟩
    · exact Or.inr (Or.inl (List.mem_of_getElem? y))
    · exact Or.inr (Or.inr y)
  · rintro (⟨i, y⟩ | y | y)
    · exact ⟨i, (v.files i f y).1⟩
    · obtain ⟨j, y⟩ := List.mem_iff_getElem?.1 y
      obtain ⟨t, _, _, _, x, _⟩ := v.own y
      exact ⟨_, x⟩
    · exact (v.lost f y).1

/-- **C66 (partial).** If no terminal is dropped while its write lock is poisoned, then once all terminals
are dropped, whether they were opened by path or use the standard streams, whether a screen was made of
them or that failed or panicked, only the inherited descriptors and those of the program itself are
open. The missing part: `C66_poisoned_drop_leaks`. -/
theorem C66_no_leak_partial (std : Nat → Nat) (inherited : Nat → Option Nat) (n : Nat)
    (hs : Starts std inherited n) (ops : List FdOp)
    (hl : AllLawful std ops (fdStart inherited n) (noHoldings n)) (s : FdSt)
    (rs : List (Option (Option Nat))) (hr : runFd ops (fdStart inherited n) = (s, rs)) (h : Holdings)
    (ts : List (Option (Option Nat))) (hh : Holdings.run std ops (noHoldings n) = (h, ts))
    (hp : NoPoisonedDrop ops) (hd : ∀ t ∈ h.terms, t = none) (i f : Nat) :
    s.tab i = some f ↔ inherited i = some f ∨ (i, f) ∈ h.files := by
  obtain ⟨v, _⟩ := fd_run hs ops _ _ (fd_init hs) hl
  have hlost := no_lost std ops (noHoldings n) hp
  rw [hh] at hlost
  rw [hr, hh] at v
  constructor
  · intro x
    rcases v.all i f x with y | y | ⟨j, y⟩ | y
    · exact Or.inl y
    · exact Or.inr y
    · exact absurd (hd _ (List.mem_of_getElem? y)) nofun
    · rw [show h.lost = [] from hlost] at y
      cases y
  · rintro (x | x)
    · exact v.kept i f x
    · exact (v.files i f x).1

/-- C66: the standard streams, for examples. -/
def demoInherited : Nat → Option Nat := fun i => if i < 3 then some i else none

theorem demo_starts : Starts id demoInherited 3 := by
  refine ⟨fun i hi => if_pos hi, fun i f e => ?_⟩
  unfold demoInherited at e
  split at e <;> cases e
  assumption

/-- **C66, the part that is false.** A terminal opened by its path is dropped while its write lock is
poisoned (because a thread panicked that was writing through a guard): the drop panics before it gets to
closing the file, which stays open for good. -/
theorem C66_poisoned_drop_leaks :
    ∃ ops s h, AllLawful id ops (fdStart demoInherited 3) (noHoldings 3) ∧
      (runFd ops (fdStart demoInherited 3)).1 = s ∧ (Holdings.run id ops (noHoldings 3)).1 = h ∧
      (∀ t ∈ h.terms, t = none) ∧ h.files = [] ∧ demoInherited 3 = none ∧ s.tab 3 = some 3 := by
  refine ⟨[.openT (some 3) true, .writeT 0, .dropT 0 true], _, _, ⟨rfl, trivial, trivial, trivial⟩, rfl, rfl,
    ?_, rfl, rfl, rfl⟩
  decide

/-- C66: a program that opens a terminal twice, where the first becomes a screen, fails to open another
one, uses standard output, and has a file of its own that gets the number of a closed descriptor. -/
example : ∃ ops, AllLawful id ops (fdStart demoInherited 3) (noHoldings 3) ∧ NoPoisonedDrop ops ∧
    (runFd ops (fdStart demoInherited 3)).2 =
      [none, none, none, none, some (some 3), some (some 1), none, none, some (some 5), none, none, none] ∧
    (∀ t ∈ (Holdings.run id ops (noHoldings 3)).1.terms, t = none) ∧
    (runFd ops (fdStart demoInherited 3)).1.tab 3 = some 6 ∧
    (runFd ops (fdStart demoInherited 3)).1.tab 4 = none := by
  refine ⟨[.openT (some 3) true, .newScreen 0 .ok, .openT (some 4) false, .stdoutT true, .readT 0, .writeT 1,
    .dropT 1 false, .openT (some 4) true, .writeT 2, .dropT 0 false, .openF 3, .newScreen 2 .bufferPanics],
    ?_, ?_, ?_, ?_, ?_, ?_⟩
  · exact ⟨rfl, trivial, rfl, trivial, trivial, trivial, trivial, rfl, trivial, trivial, rfl, trivial, trivial⟩
  · intro i; simp
  · decide
  · decide
  · decide
  · decide

end Mortal
