import Verif.Lemmas.WinCalls
import Verif.Lemmas.WinPure
import Verif.Spec.WinText

/-! # UTF-16 text -/

namespace Mortal
open Spec

theorem decode16_nil : decode16 [] = some ([], []) := by unfold decode16; rfl

theorem decode16_encode (c : Char) (r : List (BitVec 16)) :
    decode16 (encodeUtf16 c ++ r) = (decode16 r).map fun (s, p) => (c :: s, p) := by
  have hv := c.valid
  have hv : c.toNat < 0xD800 ∨ (0xDFFF < c.toNat ∧ c.toNat < 0x110000) := hv
  unfold encodeUtf16
  split
  · rename_i h
    have e : (BitVec.ofNat 16 c.toNat).toNat = c.toNat := by
      rw [BitVec.toNat_ofNat]; omega
    rw [List.singleton_append, decode16.eq_def]
    simp only [e]
    rw [if_neg (by omega), if_neg (by omega), Char.ofNat_toNat]
  · rename_i h
    have e1 : (BitVec.ofNat 16 (0xD800 + (c.toNat - 0x10000) / 0x400)).toNat =
        0xD800 + (c.toNat - 0x10000) / 0x400 := by
      rw [BitVec.toNat_ofNat]; omega
    have e2 : (BitVec.ofNat 16 (0xDC00 + (c.toNat - 0x10000) % 0x400)).toNat =
        0xDC00 + (c.toNat - 0x10000) % 0x400 := by
      rw [BitVec.toNat_ofNat]; omega
    rw [List.cons_append, List.singleton_append, decode16.eq_def]
    simp only [e1, e2]
    rw [if_pos (by omega), if_pos (by omega)]
    have e3 : 0x10000 + (0xD800 + (c.toNat - 0x10000) / 0x400 - 0xD800) * 0x400 +
        (0xDC00 + (c.toNat - 0x10000) % 0x400 - 0xDC00) = c.toNat := by omega
    rw [e3, Char.ofNat_toNat]

theorem decode16_text (text : List Char) : decode16 (text.flatMap encodeUtf16) = some (text, []) := by
  induction text with
  | nil => exact decode16_nil
  | cons c text ih => rw [List.flatMap_cons, decode16_encode, ih]; rfl

theorem decode16_append (a b : List (BitVec 16)) :
    decode16 (a ++ b) = (decode16 a).bind fun (s, p) =>
      (decode16 (p ++ b)).map fun (s2, p2) => (s ++ s2, p2) := by
  fun_induction decode16 a with
  | case1 => simp
  | case2 x h => simp
  | case3 x h y rest h2 ih =>
    rw [List.cons_append, List.cons_append, decode16.eq_def]
    simp only [h, h2, and_self, if_true]
    rw [ih]
    cases decode16 rest with
    | none => rfl
    | some v =>
      simp only [Option.bind_some, Option.map_some]
      cases decode16 (v.2 ++ b) <;> rfl
  | case4 x h y rest h2 =>
    rw [List.cons_append, List.cons_append, decode16.eq_def]
    simp only [h, and_self, if_true, if_neg h2, Option.bind_none]
  | case5 x rest h h2 =>
    rw [List.cons_append, decode16.eq_def]
    simp only [h, h2, and_self, if_true, if_false, Option.bind_none]
  | case6 x rest h h2 ih =>
    rw [List.cons_append, decode16.eq_def]
    simp only [h, h2, if_false]
    rw [ih]
    cases decode16 rest with
    | none => rfl
    | some v =>
      simp only [Option.bind_some, Option.map_some]
      cases decode16 (v.2 ++ b) <;> rfl

theorem decode16_settled {a : List (BitVec 16)} {s : List Char} {p : List (BitVec 16)}
    (h : decode16 a = some (s, p)) : decode16 p = some ([], p) := by
  fun_induction decode16 a generalizing s p with
  | case1 => cases h; exact decode16_nil
  | case2 x hx =>
    cases h
    rw [decode16.eq_def]
    simp only [hx, and_self, if_true]
  | case3 x hx y rest h2 ih =>
    cases hr : decode16 rest with
    | none => rw [hr] at h; cases h
    | some v => rw [hr] at h; cases h; exact ih hr
  | case4 => cases h
  | case5 => cases h
  | case6 x rest hx h2 ih =>
    cases hr : decode16 rest with
    | none => rw [hr] at h; cases h
    | some v => rw [hr] at h; cases h; exact ih hr

theorem putChar_pend (u : UEnv) (o : OutBuf) (p : List (BitVec 16)) (ch : Char) :
    ({ o with pend := p } : OutBuf).putChar u ch =
      (o.putChar u ch).map fun o' => { o' with pend := p } := by
  unfold OutBuf.putChar
  by_cases hc : Control ch
  · rw [if_pos hc, if_pos hc]
    unfold OutBuf.putControl
    dsimp only
    by_cases hm : o.mode.getLsbD 0 = false
    · rw [if_pos hm, if_pos hm]; rfl
    · rw [if_neg hm, if_neg hm]
      by_cases h1 : ch = '\r'
      · rw [if_pos h1, if_pos h1]; cases o.glyph.cur <;> rfl
      · rw [if_neg h1, if_neg h1]
        by_cases h2 : ch = '\n'
        · rw [if_pos h2, if_pos h2]
          cases o.glyph.cur with
          | none => rfl
          | some q =>
            simp only [Option.bind_some, OutBuf.lineFeed]
            split <;> rfl
        · rw [if_neg h2, if_neg h2]; rfl
  · rw [if_neg hc, if_neg hc]
    dsimp only
    cases o.glyph.putChar u ch <;> rfl

theorem outText_pend (u : UEnv) (o : OutBuf) (p : List (BitVec 16)) (s : List Char) :
    ({ o with pend := p } : OutBuf).putText u s =
      (o.putText u s).map fun o' => { o' with pend := p } := by
  induction s generalizing o with
  | nil => rfl
  | cons ch s ih =>
    simp only [OutBuf.putText]
    rw [putChar_pend]
    cases o.putChar u ch with
    | none => rfl
    | some o' => simp only [Option.map_some, Option.bind_some]; exact ih o'

theorem outText_append (u : UEnv) (o : OutBuf) (s s' : List Char) :
    o.putText u (s ++ s') = (o.putText u s).bind (OutBuf.putText u s') := by
  induction s generalizing o with
  | nil => rfl
  | cons ch s ih =>
    simp only [List.cons_append, OutBuf.putText]
    cases o.putChar u ch with
    | none => rfl
    | some o' => simp only [Option.bind_some]; exact ih o'

theorem putChar_pend_eq {u : UEnv} {o o' : OutBuf} {ch : Char} (h : o.putChar u ch = some o') :
    o'.pend = o.pend := by
  have := putChar_pend u o o.pend ch
  rw [h, Option.map_some, Option.some.injEq] at this
  rw [this]

theorem outText_pend_eq {u : UEnv} {o o' : OutBuf} {s : List Char} (h : o.putText u s = some o') :
    o'.pend = o.pend := by
  induction s generalizing o with
  | nil => cases h; rfl
  | cons ch s ih =>
    simp only [OutBuf.putText] at h
    cases hc : o.putChar u ch with
    | none => rw [hc] at h; cases h
    | some o1 =>
      rw [hc, Option.bind_some] at h
      rw [ih h, putChar_pend_eq hc]

theorem feed_append (u : UEnv) (o : OutBuf) (a b : List (BitVec 16)) :
    o.feed u (a ++ b) = (o.feed u a).bind fun o' => o'.feed u b := by
  unfold OutBuf.feed
  rw [← List.append_assoc, decode16_append]
  cases decode16 (o.pend ++ a) with
  | none => rfl
  | some v =>
    obtain ⟨s, p⟩ := v
    simp only [Option.bind_some]
    rw [outText_pend]
    cases ht : o.putText u s with
    | none =>
      simp only [Option.map_none, Option.bind_none]
      cases decode16 (p ++ b) with
      | none => rfl
      | some w =>
        simp only [Option.map_some, Option.bind_some]
        rw [outText_pend, outText_append, ht]
        rfl
    | some o1 =>
      simp only [Option.map_some, Option.bind_some]
      cases decode16 (p ++ b) with
      | none => rfl
      | some w =>
        simp only [Option.map_some, Option.bind_some]
        rw [outText_pend, outText_append, ht]
        show _ = ({ o1 with pend := w.2 } : OutBuf).putText u w.1
        rw [outText_pend]
        rfl

theorem feed_text (u : UEnv) (o : OutBuf) (hp : o.pend = []) (text : List Char) :
    o.feed u (text.flatMap encodeUtf16) = o.putText u text := by
  unfold OutBuf.feed
  rw [hp, List.nil_append, decode16_text, Option.bind_some]
  show ({ o with pend := [] } : OutBuf).putText u text = _
  rw [← hp]

/-! ## The loop -/

theorem dword_take (buf : List (BitVec 16)) :
    (toDword buf.length).toNat = min buf.length 4294967295 := by
  unfold toDword
  split
  · show 4294967295 = _; omega
  · rw [BitVec.toNat_ofNat]; omega

theorem accepted_append (h : Nat) (a b : List WEv) :
    accepted h (a ++ b) = accepted h a ++ accepted h b := List.flatMap_append

theorem accepted_haps (h : Nat) {l : List WEv} (hl : ∀ e ∈ l, IsHap e) : accepted h l = [] := by
  unfold accepted
  rw [List.flatMap_eq_nil_iff]
  intro e he
  have := hl e he
  cases e with
  | call _ _ => exact this.elim
  | _ => rfl

theorem onlyWrites_haps (h : Nat) {l : List WEv} (hl : ∀ e ∈ l, IsHap e) : OnlyWrites h l :=
  fun _ _ hm => (hl _ hm).elim

theorem writeLoop_log (h : Nat) : ∀ (f : Nat) (buf : List (BitVec 16)) (s : WinSt),
    (∀ s', writeLoop h f buf s = .ok () s' → ∃ D, s'.log = s.log ++ D ∧ OnlyWrites h D ∧
      SameTerm s s' ∧ (HonestWrites D → accepted h D = buf)) ∧
    (∀ e s', writeLoop h f buf s = .err e s' → ∃ D0 us, s'.log = s.log ++ D0 ++ [.call (.write h us) .fail] ∧
      OnlyWrites h D0 ∧ SameTerm s s' ∧ e = .os ∧
      (HonestWrites D0 → ∃ rest, accepted h D0 ++ rest = buf))
  | 0, buf, s => by
    unfold writeLoop
    constructor
    · intro s' e
      split at e
      · cases e
      · cases e
        refine ⟨[], by simp, fun _ _ h => (by cases h), .refl s, fun _ => ?_⟩
        cases buf with
        | nil => rfl
        | cons x l => rename_i hb; simp at hb
    · intro er s' e
      split at e <;> cases e
  | f + 1, buf, s => by
    unfold writeLoop
    by_cases hb : buf.length > 0
    · rw [if_pos hb]
      simp only [sm_bind]
      cases hc : conCall (.write h (buf.take (toDword buf.length).toNat)) s with
      | stop w => constructor <;> (intros; rename_i e; cases e)
      | err e s1 => exact absurd hc conCall_not_err
      | ok a s1 =>
        obtain ⟨evs, h1, h2, h3, -⟩ := conCall_ok hc
        dsimp only
        cases a with
        | wrote n =>
          dsimp only
          obtain ⟨ih1, ih2⟩ := writeLoop_log h f (buf.drop n) s1
          have key : ∀ D, HonestWrites (evs ++ [.call (.write h (buf.take (toDword buf.length).toNat)) (.wrote n)] ++ D) →
              HonestWrites D ∧ accepted h (evs ++ [.call (.write h (buf.take (toDword buf.length).toNat)) (.wrote n)] ++ D) =
                buf.take n ++ accepted h D := by
            intro D hh
            refine ⟨fun a b c hm => hh a b c (by simp [hm]), ?_⟩
            have := hh h (buf.take (toDword buf.length).toNat) n (by simp)
            rw [List.length_take] at this
            rw [accepted_append, accepted_append, accepted_haps h h1]
            show [] ++ ((if h = h then _ else _) ++ []) ++ _ = _
            rw [if_pos rfl, List.nil_append, List.append_nil, List.take_take,
              Nat.min_eq_left (by omega)]
          have ow : ∀ D, OnlyWrites h D → OnlyWrites h (evs ++
              [.call (.write h (buf.take (toDword buf.length).toNat)) (.wrote n)] ++ D) := by
            intro D hD c a hm
            rcases List.mem_append.mp hm with hm | hm
            · rcases List.mem_append.mp hm with hm | hm
              · exact (h1 _ hm).elim
              · simp only [List.mem_singleton, WEv.call.injEq] at hm
                exact ⟨_, n, hm.1, hm.2⟩
            · exact hD c a hm
          constructor
          · intro s' e
            obtain ⟨D, g1, g2, g3, g4⟩ := ih1 s' e
            refine ⟨_, by rw [g1, h2]; simp only [List.append_assoc], ow D g2, h3.trans g3, fun hh => ?_⟩
            obtain ⟨k1, k2⟩ := key D hh
            rw [k2, g4 k1, List.take_append_drop]
          · intro er s' e
            obtain ⟨D, us, g1, g2, g3, g4, g5⟩ := ih2 er s' e
            refine ⟨_, us, by rw [g1, h2]; simp only [List.append_assoc], ow D g2, h3.trans g3, g4, fun hh => ?_⟩
            obtain ⟨k1, k2⟩ := key D hh
            obtain ⟨rest, hr⟩ := g5 k1
            exact ⟨rest, by rw [k2, List.append_assoc, hr, List.take_append_drop]⟩
        | fail =>
          constructor
          · intro s' e; cases e
          · intro er s' e; cases e
            refine ⟨evs, _, h2, onlyWrites_haps h h1, h3, rfl, fun _ => ⟨buf, ?_⟩⟩
            rw [accepted_haps h h1]; rfl
        | _ => constructor <;> (intros; rename_i e; cases e)
    · rw [if_neg hb]
      constructor
      · intro s' e; cases e
        refine ⟨[], by simp, fun _ _ h => (by cases h), .refl s, fun _ => ?_⟩
        cases buf with
        | nil => rfl
        | cons x l => simp at hb
      · intro er s' e; cases e

theorem writeLoop_total (h : Nat) : ∀ (f : Nat) (buf : List (BitVec 16)) (s : WinSt),
    f = s.os.length → buf.length ≤ s.os.length → SomeProgress s.os → ∃ s', writeLoop h f buf s = .ok () s'
  | 0, buf, s, hf, hl, _ => by
    unfold writeLoop
    rw [if_neg (by omega)]
    exact ⟨s, rfl⟩
  | f + 1, buf, s, hf, hl, hp => by
    unfold writeLoop
    by_cases hb : buf.length > 0
    · rw [if_pos hb]
      cases ho : s.os with
      | nil => rw [ho] at hf; cases hf
      | cons st os =>
        obtain ⟨n, hn, ha⟩ := hp st (by simp [ho])
        simp only [sm_bind, conCall, ho, ha]
        obtain ⟨evs, -, -, -, h4⟩ := haps_run st.haps { s with os := os }
        rw [ho, List.length_cons] at hf hl
        refine writeLoop_total h f _ _ ?_ ?_ ?_
        · show f = (st.haps.foldl WHap.run { s with os := os }).os.length
          rw [h4]; show f = os.length; omega
        · show _ ≤ (st.haps.foldl WHap.run { s with os := os }).os.length
          rw [h4, List.length_drop]; show _ ≤ os.length; omega
        · intro st' hm
          have hm : st' ∈ (st.haps.foldl WHap.run { s with os := os }).os := hm
          rw [h4] at hm
          exact hp st' (by rw [ho]; exact List.mem_cons_of_mem _ hm)
    · rw [if_neg hb]; exact ⟨s, rfl⟩

theorem writeLoop_zero (h : Nat) : ∀ (f : Nat) (buf : List (BitVec 16)) (s : WinSt),
    f = s.os.length → buf ≠ [] → (∀ st ∈ s.os, st.ans = .wrote 0) →
      writeLoop h f buf s = .stop .blocked
  | 0, buf, s, hf, hl, _ => by
    unfold writeLoop
    rw [if_pos (by cases buf; exact absurd rfl hl; simp)]
    rfl
  | f + 1, buf, s, hf, hl, hp => by
    unfold writeLoop
    rw [if_pos (by cases buf; exact absurd rfl hl; simp)]
    cases ho : s.os with
    | nil => rw [ho] at hf; cases hf
    | cons st os =>
      have ha := hp st (by simp [ho])
      simp only [sm_bind, conCall, ho, ha]
      obtain ⟨evs, -, -, -, h4⟩ := haps_run st.haps { s with os := os }
      rw [ho, List.length_cons] at hf
      refine writeLoop_zero h f _ _ ?_ hl ?_
      · show f = (st.haps.foldl WHap.run { s with os := os }).os.length
        rw [h4]; show f = os.length; omega
      · intro st' hm
        have hm : st' ∈ (st.haps.foldl WHap.run { s with os := os }).os := hm
        rw [h4] at hm
        exact hp st' (by rw [ho]; exact List.mem_cons_of_mem _ hm)

theorem setOut_setOut (c : Con) (h : Nat) (o o' : OutBuf) :
    (c.setOut h o).setOut h o' = c.setOut h o' := by
  unfold Con.setOut
  congr 1
  funext j
  dsimp only
  split <;> rfl

theorem setOut_outs (c : Con) (h : Nat) (o : OutBuf) : (c.setOut h o).outs h = some o := by
  simp [Con.setOut]

theorem setOut_self {c : Con} {h : Nat} {o : OutBuf} (e : c.outs h = some o) : c.setOut h o = c := by
  unfold Con.setOut
  have : (fun j => if j = h then some o else c.outs j) = c.outs := by
    funext j
    split
    · subst j; exact e.symm
    · rfl
  rw [this]

variable {u : UEnv} {k : Nat}

/-- The loop, on a console that can show the text. -/
theorem does_writeLoop (h : Nat) (c0 : Con) (s0 : WinSt) : ∀ (f : Nat) (buf : List (BitVec 16))
    (c : Con) (o o' : OutBuf),
    c.outs h = some o → decode16 o.pend = some ([], o.pend) → o.feed u buf = some o' →
    Does u k (CAt c s0) (writeLoop h f buf) (fun _ => CAt (c.setOut h o') s0)
      (fun _ d t => ∃ pre rest o1, buf = pre ++ rest ∧ o.feed u pre = some o1 ∧
        CAt (c.setOut h o1) s0 d t)
  | 0, buf, c, o, o', ho, hp, hf => by
    unfold writeLoop
    split
    · exact .halt _
    · rename_i hb
      have : buf = [] := by cases buf; rfl; simp at hb
      subst this
      have : o' = o := by
        unfold OutBuf.feed at hf
        rw [List.append_nil, hp] at hf
        cases hf; rfl
      subst this
      rw [setOut_self ho]
      exact Does.mono (Does.pure ()) (fun _ _ h => h) (fun _ _ _ h => h.2) (fun _ _ _ h => h)
  | f + 1, buf, c, o, o', ho, hp, hf => by
    unfold writeLoop
    by_cases hb : buf.length > 0
    · rw [if_pos hb]
      have hfeed : ∀ n, ∃ o1, o.feed u (buf.take n) = some o1 ∧ o1.feed u (buf.drop n) = some o' ∧
          decode16 o1.pend = some ([], o1.pend) := by
        intro n
        have hf' := hf
        rw [← List.take_append_drop n buf, feed_append] at hf'
        cases h1 : o.feed u (buf.take n) with
        | none => rw [h1] at hf'; cases hf'
        | some o1 =>
          rw [h1, Option.bind_some] at hf'
          refine ⟨o1, rfl, hf', ?_⟩
          unfold OutBuf.feed at h1
          cases hd : decode16 (o.pend ++ buf.take n) with
          | none => rw [hd] at h1; cases h1
          | some v =>
            rw [hd, Option.bind_some] at h1
            rw [outText_pend_eq h1]
            exact decode16_settled hd
      refine Does.bind (R := fun a d t => (a = .fail ∧ CAt c s0 d t) ∨
        ∃ n o1, a = .wrote n ∧ o.feed u (buf.take n) = some o1 ∧ CAt (c.setOut h o1) s0 d t) ?_ ?_
      · refine Does.call (CAt.stable c s0) _ ?_ ?_
        · rintro d t a ⟨⟨q, rfl⟩, hs⟩ pos
          rcases pos with rfl | ⟨o2, n, h1, h2, rfl⟩
          · exact ⟨_, rfl, Or.inl ⟨rfl, ⟨q, rfl⟩, hs⟩⟩
          · have h1 : c.outs h = some o2 := h1
            rw [ho] at h1; cases h1
            rw [List.length_take] at h2
            obtain ⟨o1, g1, g2⟩ := hfeed n
            refine ⟨{ c.setOut h o1 with queue := q }, ?_, Or.inr ⟨n, o1, rfl, g1, ⟨q, rfl⟩, hs⟩⟩
            simp only [Con.step]
            rw [onOut_some (c := { c with queue := q }) ho, List.take_take,
              Nat.min_eq_left (by omega), g1]
            rfl
        · intro a d t q t' h1 h2
          rcases h1 with ⟨e, h1⟩ | ⟨n, o1, e, g, h1⟩
          · exact Or.inl ⟨e, CAt.stable _ _ _ _ _ _ h1 h2⟩
          · exact Or.inr ⟨n, o1, e, g, CAt.stable _ _ _ _ _ _ h1 h2⟩
      · intro a
        cases a with
        | wrote n =>
          obtain ⟨o1, g1, g2, g3⟩ := hfeed n
          have ih := does_writeLoop h c0 s0 f (buf.drop n) (c.setOut h o1) o1 o'
            (setOut_outs c h o1) g3 g2
          refine Does.mono ih ?_ ?_ ?_
          · rintro d t (⟨e, -⟩ | ⟨n', o2, e, g, hc⟩)
            · cases e
            · cases e; rw [g1] at g; cases g; exact hc
          · intro _ d t hq; rw [setOut_setOut] at hq; exact hq
          · rintro _ d t ⟨pre, rest, o2, e, g, hc⟩
            refine ⟨buf.take n ++ pre, rest, o2, ?_, ?_, ?_⟩
            · rw [List.append_assoc, ← e, List.take_append_drop]
            · rw [feed_append, g1]; exact g
            · rw [setOut_setOut] at hc; exact hc
        | fail =>
          refine Does.mono (Does.throw (P := CAt c s0) .os) ?_ (fun _ _ _ h => h) ?_
          · rintro d t (⟨-, hc⟩ | ⟨n', o2, e, -⟩)
            · exact hc
            · cases e
          · rintro e d t ⟨-, hc⟩
            refine ⟨[], buf, o, rfl, ?_, by rw [setOut_self ho]; exact hc⟩
            unfold OutBuf.feed
            rw [List.append_nil, hp]; rfl
        | _ => exact .halt _
    · rw [if_neg hb]
      have : buf = [] := by cases buf; rfl; simp at hb
      subst this
      have : o' = o := by
        unfold OutBuf.feed at hf
        rw [List.append_nil, hp] at hf
        cases hf; rfl
      subst this
      rw [setOut_self ho]
      exact Does.mono (Does.pure ()) (fun _ _ h => h) (fun _ _ _ h => h.2) (fun _ _ _ h => h)

theorem grows_writeLoop (h : Nat) (f : Nat) (buf : List (BitVec 16)) : Grows (writeLoop h f buf) := by
  intro s
  obtain ⟨h1, h2⟩ := writeLoop_log h f buf s
  constructor
  · intro a s' e
    obtain ⟨D, g, -⟩ := h1 s' e
    exact ⟨D, g⟩
  · intro er s' e
    obtain ⟨D, us, g, -⟩ := h2 er s' e
    exact ⟨D ++ [.call (.write h us) .fail], by rw [g, List.append_assoc]⟩

theorem grows_get : Grows (SM.get : WM WinSt) :=
  (Does.get (u := demoEnv) (k := 0) (P := fun _ _ => False) (E := fun _ _ _ => False)).grows

/-- Text, on a console that can show it. -/
theorem does_writeStr (c0 : Con) (s0 : WinSt) (o o' : OutBuf) (text : List Char)
    (ho : c0.outs s0.outH = some o) (hp : o.pend = []) (ht : o.putText u text = some o') :
    Does u k (CAt c0 s0) (winWriteStr text) (fun _ => CAt (c0.setOut s0.outH o') s0)
      (fun _ d t => ∃ pre rest o1, text.flatMap encodeUtf16 = pre ++ rest ∧ o.feed u pre = some o1 ∧
        CAt (c0.setOut s0.outH o1) s0 d t) := by
  unfold winWriteStr
  refine Does.bind (R := fun a c s => a.outH = s0.outH ∧ CAt c0 s0 c s) ?_ fun a => ?_
  · refine Does.mono Does.get (fun _ _ h => h) ?_ (fun _ _ _ h => h)
    rintro a c s ⟨rfl, h⟩
    exact ⟨h.2.outH, h⟩
  · refine Does.assume (grows_writeLoop _ _ _) fun e => ?_
    rw [e]
    exact does_writeLoop s0.outH c0 s0 _ _ c0 o o' ho (by rw [hp]; exact decode16_nil)
      (by rw [feed_text u o hp]; exact ht)

end Mortal
