import Verif.Lemmas.VtInput
import Verif.Lemmas.VtModes

/-! # Input read through a screen -/

namespace Mortal
open Spec

/-- An event that is read is the next piece. -/
theorem read_piece {env : REnv} {K : PMap SeqData} (hm : Table env.seqs K) {t : Option Nat} {s s1 : US}
    {ev : Event} (hread : readEvent env t s = .ok (some ev) s1) (hk : (∃ k, ev = .key k) ∨ ∃ x, ev = .mouse x)
    {all done ps : List Piece} (hall : all = done ++ ps) (hin : s.inBuf ++ s.input = stream ps)
    (hp : Parsed K ps) (hcut : Unsplit all ((stream all).length - s1.input.length)) :
    ∃ p ps', ps = p :: ps' ∧ ev = p.event ∧ s1.inBuf ++ s1.input = stream ps' := by
  obtain ⟨g, n, k1, k2, k3⟩ := readEvent_peek hm hread hk
  have hbuf : (s.inBuf ++ g) ++ s1.input = stream ps := by
    rw [← hin, k1, List.append_assoc]
  have hne : s.inBuf ++ g ≠ [] := fun h => by rw [h] at k2; cases k2
  cases ps with
  | nil => exact absurd (List.append_eq_nil_iff.mp hbuf).1 hne
  | cons p ps' =>
    refine ⟨p, ps', rfl, ?_⟩
    have hpre : s.inBuf ++ g <+: stream (p :: ps') := ⟨s1.input, hbuf⟩
    have hpb : p.bytes <+: stream (p :: ps') := ⟨stream ps', by simp [stream]⟩
    have hu : Unsplit (p :: ps') (s.inBuf ++ g).length := by
      rw [← unsplit_append done, ← hall]
      have e : (stream all).length - s1.input.length = (stream done).length + (s.inBuf ++ g).length := by
        have h1 : stream all = stream done ++ stream (p :: ps') := by rw [hall]; simp [stream]
        rw [h1, ← hbuf]
        simp only [List.length_append]
        omega
      rw [← e]
      exact hcut
    rw [Unsplit] at hu
    by_cases hlt : (s.inBuf ++ g).length < p.bytes.length
    · rw [if_pos hlt] at hu
      rcases hu with hu | ⟨c, rfl⟩
      · exact absurd (List.length_eq_zero_iff.mp hu) hne
      · rw [peek_partial hpb hpre hne hlt] at k2
        cases k2
    · have hpb' : p.bytes <+: s.inBuf ++ g := List.prefix_of_prefix_length_le hpb hpre (by omega)
      rw [peek_piece hm hp.1 hpre hpb'] at k2
      simp only [Option.some.injEq, Peek.event.injEq] at k2
      obtain ⟨hev, rfl⟩ := k2
      obtain ⟨x, hx⟩ := hpb'
      have : stream (p :: ps') = p.bytes ++ stream ps' := by simp [stream]
      rw [this, ← hx, List.append_assoc, List.append_cancel_left_eq] at hbuf
      rw [k3, ← hx, List.drop_left]
      exact ⟨hev.symm, hbuf⟩

/-- What a call other than `read_raw` does to the input: nothing, or it reads an event. -/
theorem scr_input {u : UEnv} {env : REnv} {K : PMap SeqData} (hm : Table env.seqs K) {op : ScrOp}
    {d d' : SData} {s s' : US} {r : URet} (hop : ∀ n t, op ≠ .readRaw n t)
    (h : op.run u env d s = some (r, d', s')) :
    (inputEvents [r] = [] ∧ s'.inBuf ++ s'.input = s.inBuf ++ s.input) ∨
    ∃ t ev, readEvent env t s = .ok (some ev) s' ∧ ((∃ k, ev = .key k) ∨ ∃ x, ev = .mouse x) ∧
      r = .event (some ev) := by
  have flow : ∀ {r : URet} {s' : US}, Flow K r s s' → (∀ b, r ≠ .raw b) → (∀ ev, r = .event (some ev) →
      ¬ ((∃ k, ev = .key k) ∨ ∃ x, ev = .mouse x)) →
      inputEvents [r] = [] ∧ s'.inBuf ++ s'.input = s.inBuf ++ s.input := by
    rintro r s' ⟨b, got, u1, u2, u3, u4⟩ h1 h2
    have same : b = [] → s'.inBuf ++ s'.input = s.inBuf ++ s.input := by
      rintro rfl
      rw [u3, ← List.append_assoc, u4]; rfl
    cases u1 with
    | raw b => exact (h1 b rfl).elim
    | @event b ev hd => exact (h2 ev rfl (denotes_kind hd)).elim
    | _ => exact ⟨rfl, same rfl⟩
  have wr : ∀ {o : Outcome Scr}, wret s o = some (r, d', s') →
      inputEvents [r] = [] ∧ s'.inBuf ++ s'.input = s.inBuf ++ s.input := by
    intro o e
    cases o with
    | ok x => cases e; exact ⟨rfl, rfl⟩
    | err y x => cases e; exact ⟨rfl, rfl⟩
    | stop y => cases e
  cases op with
  | draw o =>
    simp only [ScrOp.run, Option.map_eq_some_iff] at h
    obtain ⟨b2, -, e2⟩ := h
    cases e2
    exact Or.inl ⟨rfl, rfl⟩
  | refresh => exact Or.inl (wr h)
  | guard gs => exact Or.inl (wr h)
  | setCursorMode m =>
    left
    have hk : Keeps SameIo (termCursorMode env m) := keeps_withWriter env (keeps_liftW _)
    have hk := hk s
    change (ret _ (termCursorMode env m s)).map _ = _ at h
    have io : ∀ {s1 : US}, SameIo s s1 → s1.inBuf ++ s1.input = s.inBuf ++ s.input := by
      intro s1 hs
      rw [hs.1, hs.2.2]
    cases hr : termCursorMode env m s with
    | ok a s1 => rw [hr] at h hk; cases h; exact ⟨rfl, io hk⟩
    | err a s1 => rw [hr] at h hk; cases h; exact ⟨rfl, io hk⟩
    | stop a => rw [hr] at h; cases h
  | waitEvent t =>
    left
    change (ret _ (Mortal.waitEvent env t s)).map _ = _ at h
    have f := fun r' s1 => run_flow (st := []) (st' := []) (s := s) (s' := s1) (r := r') hm (op := .waitEvent t)
    simp only [UOp.run] at f
    cases hr : Mortal.waitEvent env t s with
    | ok a s1 =>
      rw [hr] at h f; cases h
      exact flow (f _ _ rfl) (fun b e => by cases e) fun ev e => by cases e
    | err a s1 =>
      rw [hr] at h f; cases h
      exact flow (f _ _ rfl) (fun b e => by cases e) fun ev e => by cases e
    | stop a => rw [hr] at h; cases h
  | readRaw n t => exact (hop n t rfl).elim
  | readEvent t =>
    change rret _ d (screenReadEvent env t d s) = _ at h
    unfold screenReadEvent at h
    rw [M.bind_apply] at h
    have f := fun r' s1 => run_flow (st := []) (st' := []) (s := s) (s' := s1) (r := r') hm (op := .readEvent t)
    simp only [UOp.run] at f
    cases hr : Mortal.readEvent env t s with
    | err a s1 =>
      rw [hr] at h f; cases h
      exact Or.inl (flow (f _ _ rfl) (fun b e => by cases e) fun ev e => by cases e)
    | stop a => rw [hr] at h; cases h
    | ok a s1 =>
      rw [hr] at h f
      have key : s' = s1 ∧ r = .event a := by
        cases a with
        | none => cases h; exact ⟨rfl, rfl⟩
        | some ev =>
          cases ev with
          | resize z =>
            dsimp only at h
            cases hd : d.updateSize z with
            | none => rw [hd] at h; cases h
            | some d2 => rw [hd] at h; cases h; exact ⟨rfl, rfl⟩
          | _ => cases h; exact ⟨rfl, rfl⟩
      obtain ⟨rfl, rfl⟩ := key
      by_cases hev : ∃ ev, a = some ev ∧ ((∃ k, ev = .key k) ∨ ∃ x, ev = .mouse x)
      · obtain ⟨ev, rfl, hk⟩ := hev
        exact Or.inr ⟨t, ev, hr, hk, rfl⟩
      · refine Or.inl (flow (f _ _ rfl) (fun b e => by cases e) fun ev e hk => hev ⟨ev, ?_, hk⟩)
        injection e

theorem inputEvents_cons {r : URet} (rs : List URet) (h : inputEvents [r] = []) :
    inputEvents (r :: rs) = inputEvents rs := by
  cases r with
  | event o =>
    cases o with
    | none => rfl
    | some ev => cases ev <;> first | rfl | cases h
  | _ => rfl

/-- A history of a screen reads the input piece by piece. -/
theorem vrun_pieces {u : UEnv} {crlf : Bool} {env : REnv} {K : PMap SeqData} (hm : Table env.seqs K)
    (all : List Piece) {x y : VLive} {es : List LiveEv} (h : VRun u crlf env x es y) :
    (∀ n t r k, LiveEv.call (.readRaw n t) r k ∉ es) → ∀ (done ps : List Piece), all = done ++ ps →
    x.s.inBuf ++ x.s.input = stream ps → Parsed K ps →
    (∀ es1 es2 z, es = es1 ++ es2 → VRun u crlf env x es1 z →
      Unsplit all ((stream all).length - z.s.input.length)) →
    ∃ i, i ≤ ps.length ∧ inputEvents (callResults es) = (ps.take i).map Piece.event ∧
      y.s.inBuf ++ y.s.input = stream (ps.drop i) := by
  induction h with
  | done x =>
    intro _ done ps _ hin _ _
    exact ⟨0, Nat.zero_le _, rfl, hin⟩
  | @call x y op r d s v es e l hrest ih =>
    intro hraw done ps hall hin hp hcut
    have hop : ∀ n t, op ≠ .readRaw n t := by
      rintro n t rfl
      exact hraw n t r _ List.mem_cons_self
    have hraw' : ∀ n t r k, LiveEv.call (.readRaw n t) r k ∉ es :=
      fun n t r k hh => hraw n t r k (List.mem_cons_of_mem _ hh)
    have hcut' : ∀ es1 es2 z, es = es1 ++ es2 → VRun u crlf env ⟨d, s, v⟩ es1 z →
        Unsplit all ((stream all).length - z.s.input.length) :=
      fun es1 es2 z h1 h2 => hcut (_ :: es1) es2 z (by rw [h1]; rfl) (.call e l h2)
    have hc1 : Unsplit all ((stream all).length - s.input.length) := hcut' [] es ⟨d, s, v⟩ rfl (.done _)
    rcases scr_input hm hop e with ⟨h1, h2⟩ | ⟨t, ev, h1, h2, rfl⟩
    · obtain ⟨i, g1, g2, g3⟩ := ih hraw' done ps hall (h2.trans hin) hp hcut'
      refine ⟨i, g1, ?_, g3⟩
      rw [callResults, inputEvents_cons _ h1, g2]
    · obtain ⟨p, ps', rfl, rfl, h3⟩ := read_piece hm h1 h2 hall hin hp hc1
      obtain ⟨i, g1, g2, g3⟩ := ih hraw' (done ++ [p]) ps' (by rw [hall]; simp) h3 hp.2 hcut'
      refine ⟨i + 1, by simpa using g1, ?_, by simpa using g3⟩
      have : inputEvents (.event (some p.event) :: callResults es) = p.event :: inputEvents (callResults es) := by
        rcases h2 with ⟨k, e⟩ | ⟨k, e⟩ <;> rw [e] <;> rfl
      rw [callResults, this, g2]
      rfl
  | @window x y z v es hz h1 h2 hrest ih =>
    intro hraw done ps hall hin hp hcut
    exact ih (fun n t r k hh => hraw n t r k (List.mem_cons_of_mem _ hh)) done ps hall hin hp
      fun es1 es2 z' e1 e2 => hcut (_ :: es1) es2 z' (by rw [e1]; rfl) (.window hz h1 h2 e2)

end Mortal
