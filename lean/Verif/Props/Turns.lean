import Verif.Lemmas.Turns

/-!
# What every read makes of the chunks input arrives in (C29)
-/

namespace Mortal
open Spec

/-- **C29.** In every history of calls, whatever the operating system delivers, each read looks at the
bytes that have arrived and at nothing else: if they begin with something it is reported without reading
on, and only if nothing can be made of them is more read. (`Turn` says this for each call; ends of waits,
signals and failures included.) -/
theorem C29_turns (env : REnv) (K : PMap SeqData) (hm : Table env.seqs K) (ops : List UOp) :
    ∀ (st st' : List PrepareState) (s s' : US) (rs : List URet),
    runU env ops st s = some (rs, st', s') →
    ∃ gots, Turns K ops rs s.inBuf gots s'.inBuf ∧ s.input = gots.flatten ++ s'.input ∧
      s'.received = s.received ++ gots.flatten := by
  induction ops with
  | nil =>
    intro st st' s s' rs h
    cases h
    exact ⟨[], .nil, rfl, by simp⟩
  | cons op ops ih =>
    intro st st' s s' rs h
    unfold runU at h
    cases e1 : UOp.run env st s op with
    | none => rw [e1] at h; cases h
    | some x =>
      obtain ⟨r, st1, s1⟩ := x
      rw [e1] at h
      simp only [Option.bind_eq_bind, Option.bind_some] at h
      cases e2 : runU env ops st1 s1 with
      | none => rw [e2] at h; cases h
      | some y =>
        obtain ⟨rs', st2, s2⟩ := y
        rw [e2] at h
        simp only [Option.bind_some, Option.pure_def, Option.some.injEq, Prod.mk.injEq] at h
        obtain ⟨rfl, rfl, rfl⟩ := h
        obtain ⟨got, h1, h2, h3⟩ := run_turn hm e1
        obtain ⟨gots, h4, h5, h6⟩ := ih _ _ _ _ _ e2
        refine ⟨got :: gots, .cons h1 h4, ?_, ?_⟩
        · rw [h2, h5]; simp
        · rw [h6, h3]; simp

/-- **C29.** The chunks decide: two histories of the same calls in which each call reads the same bytes
report the same keys and mouse events and leave the same bytes, whatever else happens. -/
theorem C29_chunks_decide (m : SequenceMap SeqData) (K : PMap SeqData) (hm : Table m K)
    (ops : List UOp) : ∀ (rs rs2 : List URet) (b b' b2 : Bytes) (gots : List Bytes),
    Turns K ops rs b gots b' → Turns K ops rs2 b gots b2 →
    inputEvents rs = inputEvents rs2 ∧ b' = b2 := by
  induction ops with
  | nil =>
    intro rs rs2 b b' b2 gots h h2
    cases h
    cases h2
    exact ⟨rfl, rfl⟩
  | cons op ops ih =>
    intro rs rs2 b b' b2 gots h h2
    cases h with
    | cons t1 u1 =>
      cases h2 with
      | cons t2 u2 =>
        obtain ⟨h1, rfl⟩ := turn_fun hm t1 t2
        obtain ⟨h3, h4⟩ := ih _ _ _ _ _ _ u1 u2
        exact ⟨(inputEvents_head _ _).trans ((by rw [h1, h3] : _ = _).trans (inputEvents_head _ _).symm), h4⟩

/-- **C29.** What a read that ends inside a sequence or a mouse report makes of it. All known sequences
begin with Escape. The bytes that have arrived begin with Escape, but not with a known sequence, or with
an introducer whose report is not complete; no other Escape follows. Then all that follows, the rest of the
sequence included, is reported character by character: Escape, then `[` and so on. -/
theorem C29_cut_exact (env : REnv) (K : PMap SeqData) (hm : Table env.seqs K)
    (hK : ∀ k v, K k = some v → k.head? = some 0x1b) (chars : List Char) (hn : '\x1b' ∉ chars) :
    ∀ (ops : List UOp) (_ : ∀ n t, UOp.readRaw n t ∉ ops) (st st' : List PrepareState) (s s' : US)
    (rs : List URet), runU env ops st s = some (rs, st', s') →
    (Piece.char '\x1b').Heads K s.inBuf → s.inBuf ++ s.input = encode ('\x1b' :: chars) →
    ∃ i, i ≤ chars.length + 1 ∧
      inputEvents rs = (('\x1b' :: chars).take i).map (fun c => Event.key (Key.ofChar c)) ∧
      s'.inBuf ++ s'.input = encode (('\x1b' :: chars).drop i) := by
  have hapart : Apart K chars := by
    intro k v c hk hc hs
    have h1 := hK k v hk
    obtain ⟨t, rfl⟩ := hs
    apply hn
    have h2 : (String.utf8EncodeChar c ++ t).head? = some 0x1b := h1
    have h3 : StartsWith ((0x1b : UInt8) :: (String.utf8EncodeChar c ++ t).tail) c := by
      refine ⟨t, ?_⟩
      cases he : String.utf8EncodeChar c ++ t with
      | nil => rw [he] at h2; cases h2
      | cons x y => rw [he] at h2; injection h2 with h2; rw [h2]; rfl
    have h4 := startsWith_iff'.mp h3
    have h5 : decodeOne ((0x1b : UInt8) :: (String.utf8EncodeChar c ++ t).tail) = .char '\x1b' 1 :=
      decodeOne_encode '\x1b' _
    rw [h5] at h4
    injection h4 with h6 _
    rw [h6]; exact hc
  intro ops
  induction ops with
  | nil =>
    intro _ st st' s s' rs h hh hs
    cases h
    exact ⟨0, Nat.zero_le _, rfl, hs⟩
  | cons op ops ih =>
    intro hops st st' s s' rs h hh hs
    unfold runU at h
    cases e1 : UOp.run env st s op with
    | none => rw [e1] at h; cases h
    | some x =>
      obtain ⟨r, st1, s1⟩ := x
      rw [e1] at h
      simp only [Option.bind_eq_bind, Option.bind_some] at h
      cases e2 : runU env ops st1 s1 with
      | none => rw [e2] at h; cases h
      | some y =>
        obtain ⟨rs', st2, s2⟩ := y
        rw [e2] at h
        simp only [Option.bind_some, Option.pure_def, Option.some.injEq, Prod.mk.injEq] at h
        obtain ⟨rfl, rfl, rfl⟩ := h
        have hops' : ∀ n t, UOp.readRaw n t ∉ ops := fun n t hx => hops n t (by simp [hx])
        obtain ⟨got, h1, h2, _⟩ := run_turn hm e1
        generalize hb' : s1.inBuf = b' at h1
        generalize hb : s.inBuf = b at h1
        cases h1 with
        | @told t p _ _ hp hq =>
          rw [hb] at hh
          obtain ⟨h5, h6⟩ := heads_unique hm hq hh
          have hrest : s1.inBuf ++ s1.input = encode chars := by
            rw [hb, hp, h2, h6, encode_cons] at hs
            simp only [List.nil_append, List.append_assoc] at hs
            rw [hb']
            exact List.append_cancel_left hs
          obtain ⟨i, i1, i2, i3⟩ :=
            C29_text_chunks_partial env K hm ops hops' st1 _ s1 _ rs' e2 chars hrest hapart
          refine ⟨i + 1, by omega, ?_, ?_⟩
          · refine (inputEvents_head _ _).trans ?_
            rw [h5, i2]; rfl
          · rw [i3]; rfl
        | toldAfter hpe _ _ => rw [hb] at hh; exact absurd hh (pending_not_heads hm hpe)
        | notYet hpe _ => rw [hb] at hh; exact absurd hh (pending_not_heads hm hpe)
        | bad hi => rw [hb] at hh; exact absurd hh (bad_not_heads hm hi)
        | badAfter hpe _ => rw [hb] at hh; exact absurd hh (pending_not_heads hm hpe)
        | silent _ hpe => rw [hb] at hh; exact absurd hh (pending_not_heads hm hpe)
        | rawLeft _ => exact absurd List.mem_cons_self (hops _ _)
        | rawRead => exact absurd List.mem_cons_self (hops _ _)
        | rawSilent _ => exact absurd List.mem_cons_self (hops _ _)
        | other _ _ hsil =>
          rw [inputEvents_silent hsil]
          refine ih hops' st1 _ s1 _ rs' e2 ?_ ?_
          · rw [hb', ← hb]; exact hh
          · rw [hb', ← hb]; rw [h2] at hs; exact hs

/-! ### Examples -/

/-- The introducer alone is not a report. -/
example : (Piece.char '\x1b').Heads demoK [0x1b, 0x5b, 0x3c] := by
  refine ⟨⟨[0x5b, 0x3c], rfl⟩, .inr ⟨[0x1b, 0x5b, 0x3c], ?_, rfl, ?_⟩⟩
  · exact longest_check (r := []) (by decide) (by decide) (by decide)
  · rintro ⟨d1, d2, d3, e, r, h, _⟩
    have := congrArg List.length h
    simp only [List.length_append, List.length_cons, List.length_nil, List.length_drop] at this
    omega

/-- A click that arrives in two reads, the first of which ends after the introducer: the user is told to
have typed it. -/
example : ((runU demoEnvR (List.replicate 9 (.readEvent none)) []
      (demoUS [] (sgrReport 0 5 3 true) (readSteps 3 ++ readSteps 6))).map fun x => inputEvents x.1) =
    some ((['\x1b', '[', '<', '0', ';', '5', ';', '3', 'M']).map fun c => Event.key (Key.ofChar c)) := by
  have : sgrReport 0 5 3 true = [0x1b, 0x5b, 0x3c, 0x30, 0x3b, 0x35, 0x3b, 0x33, 0x4d] := by
    simp [sgrReport, sgrBody, decimal]
  rw [this]
  decide +kernel

/-- The table of the examples has only sequences that begin with Escape. -/
example : ∀ k v, demoK k = some v → k.head? = some 0x1b := by
  intro k v h
  rcases demoK_keys k v h with rfl | rfl | rfl | rfl <;> rfl

end Mortal
