import Verif.Spec.Timeout
import Verif.Props.Signals

/-!
# Timeouts (C40)
-/

namespace Mortal
open Spec

theorem i64Max_val : i64Max = 9223372036854775807 := by decide
theorem maxSecs_val : MAX_SECS = 9223372036854775 := by decide
theorem tvMax_val : i64Max.tdiv 1000000 = 9223372036854 := by decide

theorem millis_eq (d : Duration) :
    (millisOf d : Int) = d.secs * 1000 + (d.subsecMillis : Nat) := by
  unfold millisOf nanoseconds Duration.subsecMillis
  have : d.secs * 1000000000 + d.nanos = d.nanos + 1000000 * (d.secs * 1000) := by omega
  rw [this, Nat.add_mul_div_left _ _ (by decide)]
  push_cast
  omega

theorem i64_in {n : Int} (h : -9223372036854775808 ≤ n ∧ n ≤ 9223372036854775807) :
    i64 n = some n := by
  unfold i64 i64Max; rw [if_pos h]

theorem subsec_lt {d : Duration} (h : Valid d) : d.subsecMillis < 1000 := by
  have := h.2
  unfold Duration.subsecMillis
  omega

theorem toTimeval_small {d : Duration} (h : ¬ (d.secs : Int) > MAX_SECS) : toTimeval d =
    (i64 ((d.secs : Int) * 1000)).bind fun p => (i64 (p + (d.subsecMillis : Nat))).bind
      TimeVal.milliseconds := by
  unfold toTimeval
  rw [if_neg h]
  rfl

theorem microseconds_in {m s : Int} (hd : m.fdiv 1000000 = s) (h0 : 0 ≤ s)
    (h1 : s ≤ 9223372036853) : TimeVal.microseconds m = some ⟨s, m.fmod 1000000⟩ := by
  unfold TimeVal.microseconds
  simp only [hd]
  rw [if_pos (by rw [tvMax_val]; omega)]

theorem split_micros (s n m : Int) (hm : m = s * 1000 + n) (h0 : 0 ≤ n) (h1 : n < 1000) :
    (m * 1000).fdiv 1000000 = s ∧ (m * 1000).fmod 1000000 = n * 1000 := by
  rw [Int.fdiv_eq_ediv_of_nonneg _ (by omega), Int.fmod_eq_emod_of_nonneg _ (by omega)]
  omega

/-- **C40 (partial).** On Unix a timeout below 9223372036854 seconds (292 thousand years) becomes a
wait of that length, rounded down to milliseconds.

Missing: longer ones panic (`C40_unix_panics_iff`) instead of saturating. -/
theorem C40_unix_exact_partial (d : Duration) (h : Valid d) (hs : d.secs ≤ 9223372036853) :
    ∃ t, toTimeval d = some t ∧ microsOf t = millisOf d * 1000 ∧ 0 ≤ t.usec ∧ t.usec < 1000000 := by
  have hm := millis_eq d
  have hlt := subsec_lt h
  generalize hx : (d.subsecMillis : Int) = n at hm
  have hn0 : 0 ≤ n := by omega
  have hn1 : n < 1000 := by omega
  obtain ⟨k1, k2⟩ := split_micros d.secs n (millisOf d) hm hn0 hn1
  generalize (millisOf d : Int) = m at hm k1 k2 ⊢
  refine ⟨⟨d.secs, n * 1000⟩, ?_, ?_, ?_, ?_⟩
  · rw [toTimeval_small (by rw [maxSecs_val]; omega), i64_in (by omega), Option.bind_some, hx, ← hm,
      i64_in (by omega), Option.bind_some, TimeVal.milliseconds, i64_in (by omega), Option.bind_eq_bind,
      Option.bind_some, microseconds_in k1 (by omega) (by omega), k2]
  · unfold microsOf
    dsimp only
    omega
  · dsimp only; omega
  · dsimp only; omega

/-- **C40 (refuted part).** On Unix every longer timeout panics; the saturation in `to_timeval` is
never of use. -/
theorem C40_unix_panics_iff (d : Duration) (h : Valid d) :
    toTimeval d = none ↔ 9223372036853 < d.secs := by
  constructor
  · intro hn
    by_contra hc
    obtain ⟨t, ht, _⟩ := C40_unix_exact_partial d h (by omega)
    rw [hn] at ht
    cases ht
  · intro hc
    have hlt : d.subsecMillis < 1000 := by
      unfold Duration.subsecMillis; have := h.2; omega
    have key : ∀ secs : Int, 9223372036853 < secs → TimeVal.milliseconds
        (secs * 1000 + (d.subsecMillis : Nat)) = none := by
      intro secs hs
      unfold TimeVal.milliseconds
      cases hi : i64 ((secs * 1000 + (d.subsecMillis : Nat)) * 1000) with
      | none => rfl
      | some n =>
        unfold i64 at hi
        split at hi
        · cases hi
          show TimeVal.microseconds _ = none
          unfold TimeVal.microseconds
          dsimp only
          rw [if_neg]
          rw [Int.fdiv_eq_ediv_of_nonneg _ (by decide)]
          rw [tvMax_val]
          omega
        · cases hi
    have step : ∀ secs : Int, 9223372036853 < secs → (do
        let prod ← i64 (secs * 1000)
        let total ← i64 (prod + (d.subsecMillis : Nat))
        TimeVal.milliseconds total) = none := by
      intro secs hs
      unfold i64
      by_cases h1 : -9223372036854775808 ≤ secs * 1000 ∧ secs * 1000 ≤ i64Max
      · rw [if_pos h1]
        show (do
          let total ← (if -9223372036854775808 ≤ secs * 1000 + (d.subsecMillis : Nat) ∧
            secs * 1000 + (d.subsecMillis : Nat) ≤ i64Max then
              some (secs * 1000 + (d.subsecMillis : Nat)) else none)
          TimeVal.milliseconds total) = none
        split
        · exact key secs hs
        · rfl
      · rw [if_neg h1]; rfl
    unfold toTimeval
    by_cases h1 : (d.secs : Int) > MAX_SECS
    · rw [if_pos h1]; exact step _ (by rw [maxSecs_val]; decide)
    · rw [if_neg h1]; exact step _ (by omega)

/-- **C40.** On Unix the time spent waiting, over all interruptions by signals, is never more than
the timeout, and exactly the timeout if `wait_event` answers `false`. -/
theorem C40_total_wait (env : REnv) (t : Nat) (s s' : US) (b : Bool)
    (h : waitEvent env (some t) s = .ok b s') :
    s.waited ≤ s'.waited ∧ s'.waited ≤ s.waited + t ∧ (b = false → s'.waited = s.waited + t) :=
  waitEvent_time h

/-- **C40 (partial).** On Windows a timeout shorter than 2^32 - 1 milliseconds (49 days) becomes
exactly that many milliseconds, rounded down, in particular not an infinite one, with or without
overflow checks.

Missing: longer ones wrap, become infinite or panic (`C40_windows_wraps`). -/
theorem C40_windows_exact_partial (d : Duration) (h : Valid d) (hs : millisOf d < 2 ^ 32 - 1) :
    ∃ v, asMillis (some d) = some v ∧ asMillisRelease (some d) = v ∧ v.toNat = millisOf d ∧
      v ≠ INFINITE := by
  have hm := millis_eq d
  unfold Duration.subsecMillis at hm
  have hd : d.nanos / 1000000 < 1000 := by have := h.2; omega
  have e1 : d.secs * 1000 < 2 ^ 32 := by omega
  have e2 : d.secs * 1000 < 2 ^ 64 := by omega
  have v : (BitVec.ofNat 32 (d.secs * 1000) + BitVec.ofNat 32 (d.nanos / 1000000)).toNat =
      millisOf d := by
    rw [BitVec.toNat_add, BitVec.toNat_ofNat, BitVec.toNat_ofNat]; omega
  refine ⟨BitVec.ofNat 32 (d.secs * 1000) + BitVec.ofNat 32 (d.nanos / 1000000), ?_, ?_, v, ?_⟩
  · unfold asMillis
    dsimp only
    rw [if_pos e2, if_pos]
    rw [BitVec.toNat_ofNat, BitVec.toNat_ofNat]; omega
  · unfold asMillisRelease
    dsimp only
    rw [Nat.mod_eq_of_lt e2]
  · intro he
    rw [he] at v
    have : INFINITE.toNat = 2 ^ 32 - 1 := by decide
    omega

/-- **C40.** Without a timeout the wait is infinite. -/
theorem C40_windows_none : asMillis none = some INFINITE ∧ asMillisRelease none = INFINITE :=
  ⟨rfl, rfl⟩

/-- **C40 (refuted part).** On Windows a finite timeout can become an infinite one; a timeout of 49
days and 17 hours can become 0.7 seconds; and an absurdly long one panics. -/
theorem C40_windows_wraps :
    asMillis (some ⟨4294967, 295000000⟩) = some INFINITE ∧
    asMillis (some ⟨4294968, 0⟩) = some 704#32 ∧
    asMillis (some ⟨2 ^ 64 - 1, 999999999⟩) = none := by decide

/-- C40: timeouts in the range of the theorems. -/
example : Valid ⟨3, 500400000⟩ ∧ millisOf ⟨3, 500400000⟩ = 3500 ∧
    toTimeval ⟨3, 500400000⟩ = some ⟨3, 500000⟩ := by
  refine ⟨⟨by decide, by decide⟩, by decide, by decide⟩

/-- C40: a wait interrupted twice by signals nobody handles. -/
example : (okOf (waitEvent demoEnvR (some 1000) (sigUS [okStep 0, ⟨[], .eintr [.tstp] 300, none⟩, okStep 0,
    ⟨[], .eintr [.tstp] 100, none⟩, okStep 0, okStep 0]))).any
    (fun x => decide (x.1 = false ∧ x.2.waited = 1000)) = true := by decide +kernel

end Mortal
