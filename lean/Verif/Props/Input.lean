import Verif.Lemmas.Unix
import Verif.Lemmas.InputTable

/-! # C25–C30: input -/

namespace Mortal
open Spec

/-! ## The tables terminals use -/

/-- **C26.** `Terminal::new` never panics building its table, whatever the terminfo entry, and the
table holds exactly the entry's key strings and, on an xterm, the mouse introducer. So every
terminal's table meets the hypothesis `Table` of the theorems below. -/
theorem C26_terminal_table (info : KeyCap → Option Bytes) (name : Bytes) :
    ∃ m, sequences info name = some m ∧ Table m (tableSpec info name) := by
  have hfin : ∀ ops : List (MapOp SeqData), ∃ m os, codeRun SequenceMap.new ops = some (m, os) := by
    intro ops
    obtain ⟨m₀, m, h1, h2, _⟩ := C01_finite_map (V := SeqData) .new ops
    cases h1
    exact ⟨m, _, h2⟩
  have hutf : ∀ k v, tableSpec info name k = some v → ∃ s, k = encode s := by
    intro k v hk
    apply ascii_encode
    unfold tableSpec at hk
    by_cases hx : XtermName name ∧ k = [0x1b, 0x5b, 0x3c]
    · rw [hx.2]; decide
    · rw [if_neg hx] at hk
      cases hl : (keysOf info knownCaps k).getLast? with
      | none => rw [hl] at hk; cases hk
      | some x =>
        have := List.mem_of_getLast? hl
        unfold keysOf at this
        rw [List.mem_filter] at this
        simpa using (of_decide_eq_true this.2).2
  have hk : keyAdds = knownCaps.map fun k => (k, keyMeant k) := by decide
  by_cases hx : isXterm name = true
  · obtain ⟨m, os, h⟩ := hfin (seqOps info knownCaps ++ [.insert [0x1b, 0x5b, 0x3c] .xtermMouse])
    refine ⟨m, ?_, ⟨.new, _, _, os, rfl, h, ?_⟩, hutf⟩
    · obtain ⟨m1, os1, h1⟩ := hfin (seqOps info knownCaps)
      have h2 := codeRun_append _ [.insert [0x1b, 0x5b, 0x3c] .xtermMouse] _ _ _ h1
      rw [h] at h2
      unfold sequences
      rw [hk, seqOps_run, h1]
      simp only [Option.map_some, Option.bind_eq_bind, Option.bind_some]
      rw [if_pos hx]
      rw [Option.map_some] at h2
      rw [h2]
      dsimp only [codeRun, MapOp.run, XTERM_MOUSE_INTRO]
      cases m1.insert [0x1b, 0x5b, 0x3c] SeqData.xtermMouse <;> rfl
    · funext b
      rw [specRun_append]
      dsimp only [specRun, MapOp.spec, PMap.upd]
      rw [seqOps_spec]
      unfold tableSpec
      by_cases hb : b = [0x1b, 0x5b, 0x3c]
      · rw [if_pos ⟨(isXterm_iff name).mp hx, hb⟩, if_pos hb]
      · rw [if_neg (fun h => hb h.2), if_neg hb]
        simp [MapInit.spec]
  · obtain ⟨m, os, h⟩ := hfin (seqOps info knownCaps)
    refine ⟨m, ?_, ⟨.new, _, _, os, rfl, h, ?_⟩, hutf⟩
    · unfold sequences
      rw [hk, seqOps_run, h]
      simp only [Option.map_some, Option.bind_eq_bind, Option.bind_some]
      rw [if_neg hx]
      rfl
    · funext b
      rw [seqOps_spec]
      unfold tableSpec
      rw [if_neg (fun h => hx ((isXterm_iff name).mpr h.1))]
      simp [MapInit.spec]

/-! ## C25 -/

/-- **C25.** In any history of calls, with any chunking of input, arrival of signals and failures:
the bytes used by each result (each as its result says, see `Uses`), one after the other, followed
by the bytes still buffered, are the bytes received from the device; and the device's stream is what
was received followed by what it still holds. -/
theorem C25_bytes_once (env : REnv) (K : PMap SeqData) (hm : Table env.seqs K) (ops : List UOp) :
    ∀ (st st' : List PrepareState) (s s' : US) (rs : List URet),
    runU env ops st s = some (rs, st', s') →
    ∃ bs got, List.Forall₂ (Uses K) rs bs ∧ s'.received = s.received ++ got ∧
      s.input = got ++ s'.input ∧ s.inBuf ++ got = bs.flatten ++ s'.inBuf := by
  induction ops with
  | nil =>
    intro st st' s s' rs h
    cases h
    exact ⟨[], [], .nil, by simp, by simp, by simp⟩
  | cons op ops ih =>
    intro st st' s s' rs h
    unfold runU at h
    cases h1 : UOp.run env st s op with
    | none => rw [h1] at h; cases h
    | some x =>
      obtain ⟨r, st1, s1⟩ := x
      rw [h1] at h
      simp only [Option.bind_eq_bind, Option.bind_some] at h
      cases h2 : runU env ops st1 s1 with
      | none => rw [h2] at h; cases h
      | some y =>
        obtain ⟨rs', st2, s2⟩ := y
        rw [h2] at h
        cases h
        obtain ⟨b, g, k1, k2, k3, k4⟩ := run_flow hm h1
        obtain ⟨bs, g', l1, l2, l3, l4⟩ := ih _ _ _ _ _ h2
        refine ⟨b :: bs, g ++ g', .cons k1 l1, ?_, ?_, ?_⟩
        · rw [l2, k2, List.append_assoc]
        · rw [k3, l3, List.append_assoc]
        · rw [← List.append_assoc, k4, List.append_assoc, l4, List.flatten_cons, List.append_assoc]

/-! ## C26 -/

theorem readEvent_of_peek {env : REnv} {s : US} {ev : Event} {n : Nat} (t : Option Nat)
    (hp : peekEvent env.seqs s.inBuf = some (.event ev n)) (hn : n ≤ s.inBuf.length) :
    readEvent env t s = .ok (some ev) { s with inBuf := s.inBuf.drop n } := by
  have hne : s.inBuf ≠ [] := by intro h; rw [h] at hp; cases hp
  have : tryReadM env s = .ok (some ev) { s with inBuf := s.inBuf.drop n } := by
    unfold tryReadM
    rw [M.bind_apply]
    dsimp only [getS]
    unfold tryRead
    rw [if_neg hne, hp]
    simp only [Option.bind_eq_bind, Option.bind_some]
    rw [if_neg (by omega)]
    rfl
  unfold readEvent
  rw [M.bind_apply, this]
  rfl

theorem begins_char {K : PMap SeqData} (hu : ∀ k v, K k = some v → ∃ s, k = encode s)
    {buf k : Bytes} (h : Begins K buf k) : ∃ c, StartsWith buf c ∧ StartsWith k c := by
  obtain ⟨h1, h2, t, ht⟩ := h
  obtain ⟨v, hv⟩ := Option.ne_none_iff_exists'.mp h1
  obtain ⟨q, rfl⟩ := hu k v hv
  match q with
  | [] => exact absurd rfl h2
  | c :: q =>
    refine ⟨c, ⟨encode q ++ t, ?_⟩, ⟨encode q, ?_⟩⟩
    · rw [← ht, encode_cons, List.append_assoc]
    · rw [encode_cons]

/-- **C26.** When the longest known sequence at the head of the buffered input is a key's,
`read_event` reports that key at once, consumes exactly the sequence and changes nothing else. -/
theorem C26_longest_key (env : REnv) (K : PMap SeqData) (hm : Table env.seqs K) (s : US)
    (t : Option Nat) (k : Bytes) (kk : Key) (hl : Longest K s.inBuf k) (hk : K k = some (.key kk)) :
    readEvent env t s = .ok (some (.key kk)) { s with inBuf := s.inBuf.drop k.length } := by
  obtain ⟨c, hc, _⟩ := begins_char hm.utf8 hl.1
  obtain ⟨u, v, hb, hv, hp⟩ := utf8Prefix_startsWith hc
  refine readEvent_of_peek t ?_ hl.1.2.2.length_le
  rw [hb] at hl hp ⊢
  rcases peek_text hm hv hp with ⟨h, _⟩ | ⟨k', kk', h1, h2, h3⟩ | ⟨k', h1, h2, _⟩
  · exact absurd hl.1 (h k)
  · cases longest_unique hl h1
    rw [hk] at h2
    cases h2
    exact h3
  · cases longest_unique hl h1
    rw [hk] at h2
    cases h2

/-- **C26.** When the buffered input begins with no known sequence, `read_event` reports its first
character at once, consumes exactly that character and changes nothing else. -/
theorem C26_first_char (env : REnv) (K : PMap SeqData) (hm : Table env.seqs K) (s : US)
    (t : Option Nat) (c : Char) (rest : Bytes) (hb : s.inBuf = String.utf8EncodeChar c ++ rest)
    (hn : ∀ k, ¬ Begins K s.inBuf k) :
    readEvent env t s = .ok (some (.key (Key.ofChar c))) { s with inBuf := rest } := by
  have hc : StartsWith s.inBuf c := ⟨rest, hb.symm⟩
  obtain ⟨u, v, hb', hv, hp⟩ := utf8Prefix_startsWith hc
  have hl := encodeChar_length c
  have hr : rest = s.inBuf.drop (lenUtf8 c) := by rw [hb, ← hl, List.drop_left]
  rw [hr]
  refine readEvent_of_peek t ?_ (by rw [hb, List.length_append]; omega)
  rw [hb'] at hn hp ⊢
  rcases peek_text hm hv hp with ⟨_, h⟩ | ⟨k', kk', h1, _⟩ | ⟨k', h1, _⟩
  · exact h
  · exact absurd h1.1 (hn k')
  · exact absurd h1.1 (hn k')

/-! ## C27 -/

/-- No known sequence starts at any position of the text. -/
def Plain (K : PMap SeqData) (s : List Char) : Prop :=
  ∀ i, ∀ k, ¬ Begins K (encode (s.drop i)) k

/-- **C27.** If no known sequence starts inside it, reading the buffered UTF-8 encoding of any text
yields `Key::from(c)` for its characters, in order and one per call, leaves nothing buffered and
changes nothing else. -/
theorem C27_text (env : REnv) (K : PMap SeqData) (hm : Table env.seqs K) (t : Option Nat)
    (text : List Char) : ∀ s : US, s.inBuf = encode text → Plain K text →
    readMany env t text.length s =
      .ok (text.map fun c => some (.key (Key.ofChar c))) { s with inBuf := [] } := by
  induction text with
  | nil =>
    intro s hs _
    show Res.ok [] s = Res.ok [] { s with inBuf := [] }
    congr 1
    cases s
    simp only at hs
    rw [hs]; rfl
  | cons c text ih =>
    intro s hs hp
    rw [List.length_cons]
    unfold readMany
    rw [encode_cons] at hs
    have h0 := hp 0
    rw [List.drop_zero, encode_cons] at h0
    rw [M.bind_apply, C26_first_char env K hm s t c (encode text) hs (by rw [hs]; exact h0)]
    dsimp only
    rw [M.bind_apply, ih { s with inBuf := encode text } rfl fun i => hp (i + 1)]
    rfl

/-! ## C28 -/

/-- **C28.** A whole SGR mouse report at the head of the buffered input, for every 32-bit code and
every 32-bit 1-based position, is reported as the event it describes and consumed entirely; nothing
else changes. -/
theorem C28_report (env : REnv) (K : PMap SeqData) (hm : Table env.seqs K) (s : US) (t : Option Nat)
    (code column line : Nat) (press : Bool) (rest : Bytes) (h1 : code < 2 ^ 32)
    (h2 : 0 < column ∧ column < 2 ^ 32) (h3 : 0 < line ∧ line < 2 ^ 32)
    (hb : s.inBuf = sgrReport code column line press ++ rest)
    (hi : K [0x1b, 0x5b, 0x3c] = some .xtermMouse) (hl : Longest K s.inBuf [0x1b, 0x5b, 0x3c]) :
    readEvent env t s =
      .ok (some (.mouse (sgrEvent code column line press))) { s with inBuf := rest } := by
  have hc : StartsWith s.inBuf '\x1b' := by
    obtain ⟨c, hc, hc'⟩ := begins_char hm.utf8 hl.1
    have : c = '\x1b' := by
      rw [startsWith_iff'] at hc'
      have : decodeOne [0x1b, 0x5b, 0x3c] = .char '\x1b' 1 := by decide
      rw [this] at hc'
      injection hc' with h _
      exact h.symm
    rw [← this]
    exact hc
  obtain ⟨u, v, hb', hv, hp⟩ := utf8Prefix_startsWith hc
  have hrest : rest = s.inBuf.drop (sgrReport code column line press).length := by
    rw [hb, List.drop_left]
  rw [hrest]
  refine readEvent_of_peek t ?_ (by rw [hb, List.length_append]; omega)
  have hbody : s.inBuf.drop 3 = sgrBody code column line press ++ rest := by rw [hb]; rfl
  rw [hb'] at hl hp hbody ⊢
  rcases peek_text hm hv hp with ⟨h, _⟩ | ⟨k', kk', g1, g2, g3⟩ | ⟨k', g1, g2, g3⟩
  · exact absurd hl.1 (h _)
  · cases longest_unique hl g1
    rw [hi] at g2
    cases g2
  · cases longest_unique hl g1
    rw [g3, show ([0x1b, 0x5b, 0x3c] : Bytes).length = 3 by rfl, hbody]
    obtain ⟨d1, n1⟩ := decimal_digits code
    obtain ⟨d2, n2⟩ := decimal_digits column
    obtain ⟨d3, n3⟩ := decimal_digits line
    have hE : (if press then (77 : UInt8) else 109).toNat = 77 ∨
        (if press then (77 : UInt8) else 109).toNat = 109 := by cases press <;> decide
    have hf := parseMouse_fields (r := rest) d1 d2 d3 (by rw [n1]; unfold u32Max; omega)
      (by rw [n2]; unfold u32Max; omega) (by rw [n3]; unfold u32Max; omega) hE
    rw [n1, n2, n3] at hf
    have hu : ∀ x, 0 < x → usub x 1 = some (x - 1) := fun x hx => by
      unfold usub; rw [if_pos (by omega)]
    rw [hu _ h2.1, hu _ h3.1] at hf
    simp only [Option.bind_eq_bind, Option.bind_some, Option.pure_def] at hf
    unfold sgrBody
    rw [hf]
    dsimp only
    rw [mouseInput_eq (by unfold u32Max; omega)]
    have hpress : decide ((if press then (77 : UInt8) else 109).toNat = 77) = press := by
      cases press <;> decide
    rw [hpress]
    have hlen : (sgrReport code column line press).length = 3 + (decimal code ++ [59] ++
        decimal column ++ [59] ++ decimal line ++ [if press then 77 else 109]).length := by
      unfold sgrReport sgrBody
      rw [List.length_append]
      rfl
    rw [hlen]
    rfl

/-- **C28 (partial).** Exactly which input makes the decoder panic (with overflow checks): a
well-formed report with a coordinate 0, right after the introducer. Everything else is decoded,
waited for or refused without a panic. The claim that no input panics is false, see
`C28_zero_coordinate_panics`. -/
theorem C28_no_panic_partial (m : SequenceMap SeqData) (K : PMap SeqData) (hm : Table m K)
    (buf : Bytes) :
    peekEvent m buf = none ↔ ∃ k d1 d2 d3 r e, Longest K buf k ∧ K k = some .xtermMouse ∧
      buf = k ++ (d1 ++ [59] ++ d2 ++ [59] ++ d3 ++ [e] ++ r) ∧ Digits d1 ∧ Digits d2 ∧ Digits d3 ∧
      numeral d1 < 2 ^ 32 ∧ numeral d2 < 2 ^ 32 ∧ numeral d3 < 2 ^ 32 ∧ (e = 77 ∨ e = 109) ∧
      (numeral d2 = 0 ∨ numeral d3 = 0) := by
  have key : ∀ c, StartsWith buf c → (peekEvent m buf = none ↔ ∃ k, Longest K buf k ∧
      K k = some .xtermMouse ∧ parseMouseData (buf.drop k.length) = none) := by
    intro c hc
    obtain ⟨u, v, hb, hv, hp⟩ := utf8Prefix_startsWith hc
    rw [hb] at hp ⊢
    rcases peek_text hm hv hp with ⟨h, he⟩ | ⟨k', kk', g1, g2, g3⟩ | ⟨k', g1, g2, g3⟩
    · rw [he]
      constructor
      · intro h; cases h
      · rintro ⟨k, hk, _⟩; exact absurd hk.1 (h k)
    · rw [g3]
      constructor
      · intro h; cases h
      · rintro ⟨k, hk, h2, _⟩
        cases longest_unique hk g1
        rw [h2] at g2
        cases g2
    · rw [g3]
      constructor
      · intro h
        refine ⟨k', g1, g2, ?_⟩
        split at h
        · assumption
        · cases h
        · cases h
      · rintro ⟨k, hk, h2, h3⟩
        cases longest_unique hk g1
        rw [h3]
  have hsome : ∀ x, 0 < x → usub x 1 = some (x - 1) := fun x hx => by
    unfold usub; rw [if_pos (by omega)]
  constructor
  · intro h
    have hne : buf ≠ [] := by rintro rfl; cases h
    rcases input_cases hne with ⟨c, hc⟩ | hu | hi
    · obtain ⟨k, h1, h2, h3⟩ := (key c hc).mp h
      obtain ⟨d1, d2, d3, r, e, hb, g1, g2, g3, n1, n2, n3, hE⟩ :=
        parseMouse_shape (b := buf.drop k.length) (by rw [h3]; simp)
      refine ⟨k, d1, d2, d3, r, e, h1, h2, ?_, g1, g2, g3, by unfold u32Max at n1; omega,
        by unfold u32Max at n2; omega, by unfold u32Max at n3; omega, ?_, ?_⟩
      · rw [← hb]
        conv => lhs; rw [← List.take_append_drop k.length buf]
        rw [← List.prefix_iff_eq_take.mp h1.1.2.2]
      · rcases hE with hE | hE
        · exact Or.inl (UInt8.toNat_inj.mp hE)
        · exact Or.inr (UInt8.toNat_inj.mp hE)
      · have hf := parseMouse_fields (r := r) g1 g2 g3 n1 n2 n3 hE
        rw [← hb, h3] at hf
        by_cases h2 : numeral d2 = 0
        · exact Or.inl h2
        · by_cases h3 : numeral d3 = 0
          · exact Or.inr h3
          · rw [hsome _ (by omega), hsome _ (by omega)] at hf
            cases hf
    · unfold peekEvent at h
      rw [utf8Prefix_unfinished hu] at h
      cases h
    · unfold peekEvent at h
      rw [utf8Prefix_illFormed hi] at h
      cases h
  · rintro ⟨k, d1, d2, d3, r, e, h1, h2, hb, g1, g2, g3, n1, n2, n3, hE, h0⟩
    obtain ⟨c, hc, _⟩ := begins_char hm.utf8 h1.1
    rw [key c hc]
    refine ⟨k, h1, h2, ?_⟩
    have hE' : e.toNat = 77 ∨ e.toNat = 109 := by
      rcases hE with rfl | rfl
      · exact Or.inl rfl
      · exact Or.inr rfl
    rw [show buf.drop k.length = d1 ++ [59] ++ d2 ++ [59] ++ d3 ++ [e] ++ r by
      rw [hb, List.drop_left]]
    rw [parseMouse_fields g1 g2 g3 (by unfold u32Max; omega) (by unfold u32Max; omega)
      (by unfold u32Max; omega) hE']
    rcases h0 with h0 | h0
    · rw [h0]
      cases usub (numeral d3) 1 <;> rfl
    · rw [h0]
      rfl

/-! ## C30 -/

/-- **C30.** An unfinished character at the head of the input is neither reported nor dropped:
nothing is decoded and the buffer is kept. -/
theorem C30_unfinished_waits (env : REnv) (s : US) (h : Unfinished s.inBuf) :
    tryReadM env s = .ok none s := by
  unfold tryReadM
  rw [M.bind_apply]
  dsimp only [getS]
  unfold tryRead peekEvent
  rw [if_neg h.1, utf8Prefix_unfinished h]
  rfl

/-- **C30.** Once the remaining bytes of the character have arrived it is reported, if no known
sequence is at the head. -/
theorem C30_completed (env : REnv) (K : PMap SeqData) (hm : Table env.seqs K) (s : US)
    (t : Option Nat) (b₁ b₂ rest : Bytes) (c : Char) (hc : String.utf8EncodeChar c = b₁ ++ b₂)
    (hs : s.inBuf = b₁ ++ (b₂ ++ rest)) (hn : ∀ k, ¬ Begins K s.inBuf k) :
    readEvent env t s = .ok (some (.key (Key.ofChar c))) { s with inBuf := rest } :=
  C26_first_char env K hm s t c rest (by rw [hs, hc, List.append_assoc]) hn

/-- **C30.** Ill-formed input at the head of the buffer yields an error, and nothing is reported for
it. -/
theorem C30_ill_formed_error (env : REnv) (s : US) (t : Option Nat) (h : IllFormed s.inBuf) :
    readEvent env t s = .err .utf8 s := by
  have : tryReadM env s = .err .utf8 s := by
    unfold tryReadM
    rw [M.bind_apply]
    dsimp only [getS]
    unfold tryRead peekEvent
    rw [if_neg h.1, utf8Prefix_illFormed h]
    rfl
  unfold readEvent
  rw [M.bind_apply, this]

/-- **C30.** The three cases above are all there is, and they exclude each other. -/
theorem C30_cases (b : Bytes) (h : b ≠ []) :
    ((∃ c, StartsWith b c) ∨ Unfinished b ∨ IllFormed b) ∧
    ¬ ((∃ c, StartsWith b c) ∧ Unfinished b) ∧ ¬ ((∃ c, StartsWith b c) ∧ IllFormed b) ∧
    ¬ (Unfinished b ∧ IllFormed b) := by
  refine ⟨input_cases h, ?_, ?_, ?_⟩
  · rintro ⟨⟨c, hc⟩, hu⟩
    rw [startsWith_iff'] at hc
    rw [(unfinished_iff.mp hu).2] at hc
    cases hc
  · rintro ⟨⟨c, hc⟩, hu⟩
    rw [startsWith_iff'] at hc
    rw [(illFormed_iff.mp hu).2] at hc
    cases hc
  · rintro ⟨h1, h2⟩
    have := (unfinished_iff.mp h1).2
    rw [(illFormed_iff.mp h2).2] at this
    cases this

/-- **C30 (partial).** Reading can continue after ill-formed input by taking the bytes with
`read_raw`, which works whatever is buffered. With `read_event` alone it cannot, see
`C30_read_event_stuck`. -/
theorem C30_raw_recovers_partial (env : REnv) (s : US) (len : Nat) (t : Option Nat)
    (h : s.inBuf ≠ []) :
    readRaw env len t s = .ok (.raw (s.inBuf.take len)) { s with inBuf := s.inBuf.drop len } := by
  unfold readRaw
  rw [M.bind_apply]
  dsimp only [getS]
  rw [if_pos h]
  have h1 : s.inBuf.take (min len s.inBuf.length) = s.inBuf.take len := by
    rw [List.take_eq_take_iff]; omega
  have h2 : s.inBuf.drop (min len s.inBuf.length) = s.inBuf.drop len := by
    rcases Nat.le_total len s.inBuf.length with hl | hl
    · rw [Nat.min_eq_left hl]
    · rw [Nat.min_eq_right hl, List.drop_of_length_le (Nat.le_refl _),
        List.drop_of_length_le hl]
  rw [h1, h2]
  rfl

/-- **C30 (refuted part).** After ill-formed input `read_event` returns the same error for ever and
never looks at the input that follows: "reading can continue" is false of `read_event`. -/
theorem C30_read_event_stuck (env : REnv) (s : US) (t : Option Nat) (h : IllFormed s.inBuf) :
    ∀ n, (runU env (List.replicate n (.readEvent t)) [] s) =
      some (List.replicate n (.err .utf8), [], s) := by
  intro n
  induction n with
  | zero => rfl
  | succ n ih =>
    rw [List.replicate_succ]
    unfold runU
    have : UOp.run env [] s (.readEvent t) = some (.err .utf8, [], s) := by
      show (ret URet.event (readEvent env t s)).map _ = _
      rw [C30_ill_formed_error env s t h]
      rfl
    rw [this]
    simp only [Option.bind_eq_bind, Option.bind_some]
    rw [ih]
    rfl

/-! ## C29 -/

/-- No known sequence starts with a character of the text. -/
def Apart (K : PMap SeqData) (s : List Char) : Prop :=
  ∀ k v c, K k = some v → c ∈ s → ¬ StartsWith k c

theorem apart_denotes {K : PMap SeqData} (hu : ∀ k v, K k = some v → ∃ s, k = encode s)
    {c : Char} {s : List Char} (ha : Apart K (c :: s)) {b r t : Bytes} {ev : Event}
    (hd : Denotes K b ev) (h : b ++ r = encode (c :: s) ++ t) :
    ev = .key (Key.ofChar c) ∧ b = String.utf8EncodeChar c := by
  have hsw : StartsWith (b ++ r) c := by
    rw [h, encode_cons, List.append_assoc]
    exact ⟨_, rfl⟩
  have key : ∀ k v u, K k = some v → k ≠ [] → k ++ u = b ++ r → False := by
    intro k v u hk hne hku
    obtain ⟨q, rfl⟩ := hu k v hk
    match q with
    | [] => exact hne rfl
    | d :: q =>
      have hd' : StartsWith (b ++ r) d := by
        rw [← hku, encode_cons, List.append_assoc]
        exact ⟨_, rfl⟩
      rw [startsWith_iff'] at hd' hsw
      rw [hd'] at hsw
      injection hsw with hdc _
      subst hdc
      refine ha _ v d hk (by simp) ⟨encode q, ?_⟩
      rw [encode_cons]
  cases hd with
  | key h1 h2 => exact (key _ _ r h1 h2 rfl).elim
  | char d =>
    have : StartsWith (String.utf8EncodeChar d ++ r) d := ⟨_, rfl⟩
    rw [startsWith_iff'] at this hsw
    rw [this] at hsw
    injection hsw with hdc _
    subst hdc
    exact ⟨rfl, rfl⟩
  | mouse h1 h2 _ _ _ => exact (key _ _ (_ ++ r) h1 h2 (List.append_assoc _ _ _).symm).elim

/-- Results of `read_event` calls use bytes only for key and mouse events. -/
theorem uses_text {K : PMap SeqData} (hu : ∀ k v, K k = some v → ∃ s, k = encode s) (rs : List URet) :
    ∀ (bs : List Bytes) (text : List Char) (r : Bytes), List.Forall₂ (Uses K) rs bs →
    (∀ b, URet.raw b ∉ rs) → Apart K text → bs.flatten ++ r = encode text →
    ∃ i, i ≤ text.length ∧
      inputEvents rs = (text.take i).map (fun c => Event.key (Key.ofChar c)) ∧
      r = encode (text.drop i) := by
  induction rs with
  | nil =>
    intro bs text r h _ _ he
    cases h
    exact ⟨0, by omega, rfl, by simpa using he⟩
  | cons x rs ih =>
    intro bs text r h hr ha he
    cases h with
    | cons h1 h2 =>
      rename_i b bs
      have hr' : ∀ b, URet.raw b ∉ rs := fun b hb => hr b (by simp [hb])
      have skip : b = [] → inputEvents (x :: rs) = inputEvents rs → ∃ i, i ≤ text.length ∧
          inputEvents (x :: rs) = (text.take i).map (fun c => Event.key (Key.ofChar c)) ∧
          r = encode (text.drop i) := by
        intro hb hx
        subst hb
        rw [hx]
        exact ih bs text r h2 hr' ha (by simpa using he)
      cases h1 with
      | raw b => exact absurd (by simp) (hr b)
      | signal sig => exact skip rfl rfl
      | resize sz => exact skip rfl rfl
      | nothing => exact skip rfl rfl
      | err e => exact skip rfl rfl
      | flag b => exact skip rfl rfl
      | unit => exact skip rfl rfl
      | event hd =>
        rename_i ev
        rw [List.flatten_cons, List.append_assoc] at he
        match text with
        | [] =>
          exfalso
          have hb : b = [] := by
            exact (List.append_eq_nil_iff.mp he).1
          subst hb
          generalize hq : ([] : Bytes) = q at hd
          cases hd with
          | key _ h => exact h hq.symm
          | char c => exact encodeChar_ne_nil c hq.symm
          | mouse _ h _ _ _ => simp at hq
        | c :: text =>
          obtain ⟨rfl, rfl⟩ := apart_denotes hu ha hd (t := []) (by rw [he]; simp)
          rw [encode_cons, List.append_cancel_left_eq] at he
          obtain ⟨i, g1, g2, g3⟩ := ih bs text r h2 hr'
            (fun k v d hk hd' => ha k v d hk (by simp [hd'])) he
          refine ⟨i + 1, by simpa using g1, ?_, by simpa using g3⟩
          show Event.key _ :: inputEvents rs = _
          rw [g2]
          rfl

/-- **C29 (partial).** For text none of whose characters starts a known sequence, the events do not
depend on chunking: after any history of `read_event` (and other, non-`read_raw`) calls, with the
stream split into reads in any way (also inside characters), signals and failures at any moment, the
key and mouse events returned are the keys of the first characters, in order, and the rest of the
text is still buffered or unread. The statement for streams with key sequences is false, see
`C29_split_sequence`. -/
theorem C29_text_chunks_partial (env : REnv) (K : PMap SeqData) (hm : Table env.seqs K)
    (ops : List UOp) (hops : ∀ n t, UOp.readRaw n t ∉ ops) (st st' : List PrepareState) (s s' : US)
    (rs : List URet) (h : runU env ops st s = some (rs, st', s')) (text : List Char)
    (htext : s.inBuf ++ s.input = encode text) (ha : Apart K text) :
    ∃ i, i ≤ text.length ∧
      inputEvents rs = (text.take i).map (fun c => Event.key (Key.ofChar c)) ∧
      s'.inBuf ++ s'.input = encode (text.drop i) := by
  obtain ⟨bs, got, h1, h2, h3, h4⟩ := C25_bytes_once env K hm ops st st' s s' rs h
  have hraw : ∀ b, URet.raw b ∉ rs := by
    clear h1 h2 h3 h4 htext ha
    induction ops generalizing st s rs with
    | nil => cases h; simp
    | cons op ops ih =>
      unfold runU at h
      cases e1 : UOp.run env st s op with
      | none => rw [e1] at h; cases h
      | some x =>
        obtain ⟨r, st1, s1⟩ := x
        rw [e1] at h
        simp only [Option.bind_eq_bind, Option.bind_some] at h
        cases e2 : runU env ops st1 s1 with
        | none => rw [e2] at h; cases h
        | some y =>
          obtain ⟨rs', st2, s2⟩ := y
          rw [e2] at h
          cases h
          have hr : ∀ b, r ≠ .raw b := by
            rintro b rfl
            cases op with
            | prepare cfg =>
              dsimp only [UOp.run] at e1
              cases hp : prepare env cfg s <;> rw [hp] at e1 <;> cases e1
            | restore =>
              dsimp only [UOp.run] at e1
              cases st with
              | nil => cases e1
              | cons p st =>
                dsimp only at e1
                cases hp : restore env p s <;> rw [hp] at e1 <;> cases e1
            | waitEvent t =>
              dsimp only [UOp.run] at e1
              cases hp : waitEvent env t s <;> rw [hp] at e1 <;> cases e1
            | readEvent t =>
              dsimp only [UOp.run] at e1
              cases hp : readEvent env t s <;> rw [hp] at e1 <;> cases e1
            | readRaw n t => exact hops n t (by simp)
            | write op =>
              dsimp only [UOp.run] at e1
              cases hp : liftW (op.run env.w) s <;> rw [hp] at e1 <;> cases e1
          intro b hb
          rcases List.mem_cons.mp hb with hb | hb
          · exact hr b hb.symm
          · exact ih (fun n t hh => hops n t (by simp [hh])) _ _ _ e2 b hb
  refine uses_text hm.utf8 rs bs text _ h1 hraw ha ?_
  rw [← htext, h3, ← List.append_assoc, ← h4, List.append_assoc]

theorem plain_of_apart {K : PMap SeqData} (hu : ∀ k v, K k = some v → ∃ s, k = encode s)
    {text : List Char} (ha : Apart K text) : Plain K text := by
  intro i k hb
  obtain ⟨c, hc, hk⟩ := begins_char hu hb
  obtain ⟨v, hv⟩ := Option.ne_none_iff_exists'.mp hb.1
  match hd : text.drop i with
  | [] =>
    rw [hd] at hc
    obtain ⟨t, ht⟩ := hc
    exact encodeChar_ne_nil c (List.append_eq_nil_iff.mp ht).1
  | d :: r =>
    rw [hd, encode_cons] at hc
    have hd' : StartsWith (String.utf8EncodeChar d ++ encode r) d := ⟨_, rfl⟩
    rw [startsWith_iff'] at hc hd'
    rw [hd'] at hc
    injection hc with h _
    subst h
    exact ha k v d hv (List.mem_of_mem_drop (i := i) (by rw [hd]; simp)) hk

/-- **C29 (partial).** And nothing is lost: once the whole stream has been read, as many more calls
of `read_event` as there are characters left return exactly those, however the stream was split. -/
theorem C29_text_completes_partial (env : REnv) (K : PMap SeqData) (hm : Table env.seqs K)
    (ops : List UOp) (hops : ∀ n t, UOp.readRaw n t ∉ ops) (st st' : List PrepareState) (s s' : US)
    (rs : List URet) (h : runU env ops st s = some (rs, st', s')) (text : List Char)
    (htext : s.inBuf ++ s.input = encode text) (ha : Apart K text) (hall : s'.input = [])
    (t : Option Nat) :
    ∃ rest s'', readMany env t rest.length s' = .ok rest s'' ∧ s''.inBuf = [] ∧
      (inputEvents rs).map some ++ rest = text.map fun c => some (Event.key (Key.ofChar c)) := by
  obtain ⟨i, h1, h2, h3⟩ := C29_text_chunks_partial env K hm ops hops st st' s s' rs h text htext ha
  rw [hall, List.append_nil] at h3
  have ha' : Apart K (text.drop i) := fun k v c hk hc => ha k v c hk (List.mem_of_mem_drop hc)
  have := C27_text env K hm t (text.drop i) s' h3 (plain_of_apart hm.utf8 ha')
  refine ⟨_, _, by rw [List.length_map]; exact this, rfl, ?_⟩
  rw [h2, List.map_map]
  show List.map (fun c => some (Event.key (Key.ofChar c))) (text.take i) ++ _ = _
  rw [← List.map_append, List.take_append_drop]

/-! ## Examples -/

/-- A history building the example table. -/
def demoOps : List (MapOp SeqData) :=
  [.insert [0x1b, 0x5b, 0x41] (.key .up), .insert [0x1b, 0x4f] (.key (.f 1)),
   .insert [0x1b, 0x4f, 0x51] (.key (.f 2)), .insert [0x1b, 0x5b, 0x3c] .xtermMouse]

/-- Its mathematical map. -/
def demoK : PMap SeqData := (specRun MapInit.new.spec demoOps).1

/-- The map the crate builds. -/
def demoM : SequenceMap SeqData :=
  ⟨[([0x1b, 0x4f], .key (.f 1)), ([0x1b, 0x4f, 0x51], .key (.f 2)),
    ([0x1b, 0x5b, 0x3c], .xtermMouse), ([0x1b, 0x5b, 0x41], .key .up)]⟩

/-- Which keys the example table has. -/
theorem demoK_keys (k : Bytes) (v : SeqData) (h : demoK k = some v) :
    k = [0x1b, 0x5b, 0x41] ∨ k = [0x1b, 0x4f] ∨ k = [0x1b, 0x4f, 0x51] ∨ k = [0x1b, 0x5b, 0x3c] := by
  simp only [demoK, demoOps, specRun, MapOp.spec, PMap.upd, MapInit.spec] at h
  split at h
  · simp_all
  · split at h
    · simp_all
    · split at h
      · simp_all
      · split at h
        · simp_all
        · cases h

/-- The example table meets the hypothesis of the theorems. -/
theorem demoTable : Table demoM demoK where
  built := ⟨.new, demoOps, _, _, rfl, rfl, rfl⟩
  utf8 := by
    intro k v h
    apply ascii_encode
    rcases demoK_keys k v h with rfl | rfl | rfl | rfl <;> decide

/-- A way to check `Longest` on concrete input. -/
theorem longest_check {K : PMap SeqData} {k r : Bytes} (h1 : K k ≠ none) (h2 : k ≠ [])
    (h3 : ∀ n ≤ r.length, n ≠ 0 → K (k ++ r.take n) = none) : Longest K (k ++ r) k := by
  refine ⟨⟨h1, h2, r, rfl⟩, fun k' hk' => ?_⟩
  rcases Nat.lt_or_ge k.length k'.length with hl | hl
  · exfalso
    obtain ⟨t, ht⟩ := List.prefix_of_prefix_length_le (l₁ := k) (l₂ := k') ⟨r, rfl⟩ hk'.2.2
      (Nat.le_of_lt hl)
    have hp : t <+: r := by
      have := hk'.2.2
      rw [← ht, List.prefix_append_right_inj] at this
      exact this
    have hlen : t.length ≠ 0 := by
      have := congrArg List.length ht
      rw [List.length_append] at this
      omega
    have := h3 t.length hp.length_le hlen
    rw [← List.prefix_iff_eq_take.mp hp, ht] at this
    exact hk'.1 this
  · exact hl

/-- A terminal for examples. -/
def demoEnvR : REnv :=
  { w := demoDB, seqs := demoM, xterm := true, spare := fun _ => 128 }

/-- A state for examples, with the given buffered input, unread input and schedule. -/
def demoUS (buf input : Bytes) (sched : List Step) : US :=
  { tio := ⟨0x500#32, 5#32, 0xbf#32, 0x3b#32, 1, 0, 7⟩,
    act := ⟨.other 0, .other 0, .other 1, .other 0, .other 0⟩,
    size := ⟨24, 80⟩, last := 0, inBuf := buf, report := SignalSet.new, resume := none,
    w := WS.new [], input := input, sched := sched, received := [], seen := [], waited := 0 }

/-- A step at which nothing arrives and the call succeeds with `n`. -/
def okStep (n : Nat) : Step := ⟨[], .ok n, none⟩

/-- C26: `ESC O Q` is F2 although `ESC O` is F1; the `A` after it is left. -/
example : readEvent demoEnvR none (demoUS [0x1b, 0x4f, 0x51, 0x41] [] []) =
    .ok (some (.key (.f 2))) (demoUS [0x41] [] []) :=
  C26_longest_key demoEnvR demoK demoTable _ none [0x1b, 0x4f, 0x51] (.f 2)
    (longest_check (r := [0x41]) (by decide) (by decide) (by decide)) rfl

theorem demo_no_begins (b : UInt8) (r : Bytes) (hb : b ≠ 0x1b) (k : Bytes) :
    ¬ Begins demoK (b :: r) k := by
  rintro ⟨h1, h2, t, ht⟩
  obtain ⟨v, hv⟩ := Option.ne_none_iff_exists'.mp h1
  rcases demoK_keys k v hv with rfl | rfl | rfl | rfl <;>
    exact hb (by injection ht with h _; exact h.symm)

/-- C26: no known sequence at the head: the first character. -/
example : readEvent demoEnvR none (demoUS [0xc3, 0xa9, 0x41] [] []) =
    .ok (some (.key (.char 'é'))) (demoUS [0x41] [] []) :=
  C26_first_char demoEnvR demoK demoTable _ none 'é' [0x41] (by decide) fun k =>
    demo_no_begins 0xc3 _ (by decide) k

/-- C27: a text of several lengths of characters, with a control character. -/
example : readMany demoEnvR none 3 (demoUS (encode ['a', 'é', '\x03']) [] []) =
    .ok [some (.key (.char 'a')), some (.key (.char 'é')), some (.key (.ctrl 'c'))]
      (demoUS [] [] []) := by
  refine C27_text demoEnvR demoK demoTable none ['a', 'é', '\x03'] _ rfl ?_
  intro i k
  match i with
  | 0 => exact demo_no_begins 0x61 _ (by decide) k
  | 1 => exact demo_no_begins 0xc3 _ (by decide) k
  | 2 => exact demo_no_begins 0x03 _ (by decide) k
  | i + 3 =>
    rintro ⟨h1, h2, t, ht⟩
    rw [show List.drop (i + 3) ['a', 'é', '\x03'] = [] by simp] at ht
    exact h2 (List.append_eq_nil_iff.mp ht).1

/-- C28: a press of the middle button with Shift at column 10, line 3, followed by an `x`. -/
example : readEvent demoEnvR none
    (demoUS [0x1b, 0x5b, 0x3c, 0x35, 0x3b, 0x31, 0x30, 0x3b, 0x33, 0x4d, 0x78] [] []) =
    .ok (some (.mouse ⟨⟨2, 9⟩, .buttonPressed .middle, { shift := true }⟩))
      (demoUS [0x78] [] []) :=
  C28_report demoEnvR demoK demoTable _ none 5 10 3 true [0x78] (by decide) (by decide) (by decide)
    (by simp [sgrReport, sgrBody, decimal, demoUS]) rfl
    (longest_check (r := [0x35, 0x3b, 0x31, 0x30, 0x3b, 0x33, 0x4d, 0x78])
      (by decide) (by decide) (by decide))

/-- **C28 (refuted part).** A report with column 0 (`ESC [ < 0 ; 0 ; 1 M`) makes the decoder
panic. -/
theorem C28_zero_coordinate_panics :
    peekEvent demoM (sgrReport 0 0 1 true) = none := by
  have : sgrReport 0 0 1 true = [0x1b, 0x5b, 0x3c, 0x30, 0x3b, 0x30, 0x3b, 0x31, 0x4d] := by
    simp [sgrReport, sgrBody, decimal]
  rw [this]
  decide +kernel

/-- C30: the first two bytes of `世` are kept. -/
example : tryReadM demoEnvR (demoUS [0xe4, 0xb8] [] []) = .ok none (demoUS [0xe4, 0xb8] [] []) :=
  C30_unfinished_waits _ _ ⟨by decide, '世', [0x96], by decide, by decide⟩

/-- C30: `0xff` is ill-formed: an error, again and again, although a `Q` follows. -/
example : (runU demoEnvR (List.replicate 3 (.readEvent none)) [] (demoUS [0xff, 0x51] [] [])) =
    some (List.replicate 3 (.err .utf8), [], demoUS [0xff, 0x51] [] []) :=
  C30_read_event_stuck _ _ none (illFormed_iff.mpr ⟨by decide, by decide⟩) 3

/-- The steps of one `read_event` that finds `n` bytes: no signal, nothing buffered, `select` says
ready, no signal, `read`. -/
def readSteps (n : Nat) : List Step :=
  [okStep 0, okStep 0, okStep 1, okStep 0, okStep n]

/-- **C29 (refuted part).** The three bytes of the Up key, read at once, are Up; read as one byte
and then two, they are Escape, `[` and `A`. The decoded events depend on the chunking. -/
theorem C29_split_sequence :
    (∃ s, runU demoEnvR [.readEvent none] [] (demoUS [] [0x1b, 0x5b, 0x41] (readSteps 3)) =
      some ([.event (some (.key .up))], [], s)) ∧
    (∃ s, runU demoEnvR [.readEvent none, .readEvent none, .readEvent none] []
        (demoUS [] [0x1b, 0x5b, 0x41] (readSteps 1 ++ readSteps 2)) =
      some ([.event (some (.key .escape)), .event (some (.key (.char '['))),
        .event (some (.key (.char 'A')))], [], s)) := by
  constructor
  · exact ⟨demoUS [] [] [] |> fun s => { s with received := [0x1b, 0x5b, 0x41] },
      by decide +kernel⟩
  · exact ⟨demoUS [] [] [] |> fun s => { s with received := [0x1b, 0x5b, 0x41] },
      by decide +kernel⟩

/-- C25 and C29: a character split over two reads, with a signal in between; the first call returns
nothing, the second the character. -/
example : ∃ s, runU demoEnvR [.readEvent none, .readEvent none] []
      (demoUS [] [0xc3, 0xa9] (readSteps 1 ++ readSteps 1)) =
      some ([.event none, .event (some (.key (.char 'é')))], [], s) ∧
    s.inBuf = [] ∧ s.received = [0xc3, 0xa9] := by
  exact ⟨demoUS [] [] [] |> fun s => { s with received := [0xc3, 0xa9] },
    by decide +kernel, rfl, rfl⟩

/-- C29: the text of that example meets the hypothesis. -/
example : Apart demoK ['é'] := by
  intro k v c hk hc
  rw [List.mem_singleton] at hc
  subst hc
  rw [startsWith_iff']
  rcases demoK_keys k v hk with rfl | rfl | rfl | rfl <;> decide

end Mortal
