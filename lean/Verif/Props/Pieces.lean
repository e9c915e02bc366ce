import Verif.Lemmas.Pieces

/-!
# Events and the chunks input arrives in (C29)
-/

namespace Mortal
open Spec

theorem pieces_run {env : REnv} {K : PMap SeqData} (hm : Table env.seqs K) (all : List Piece) :
    ∀ (ops : List UOp), (∀ n t, UOp.readRaw n t ∉ ops) →
    ∀ (st st' : List PrepareState) (s s' : US) (rs : List URet),
    runU env ops st s = some (rs, st', s') → ∀ (done ps : List Piece), all = done ++ ps →
    s.inBuf ++ s.input = stream ps → Parsed K ps →
    (∀ ops1 ops2 rs1 st1 s1, ops = ops1 ++ ops2 → runU env ops1 st s = some (rs1, st1, s1) →
      Unsplit all ((stream all).length - s1.input.length)) →
    ∃ i, i ≤ ps.length ∧ inputEvents rs = (ps.take i).map Piece.event ∧
      s'.inBuf ++ s'.input = stream (ps.drop i) := by
  intro ops
  induction ops with
  | nil =>
    intro _ st st' s s' rs h done ps _ hin _ _
    cases h
    exact ⟨0, Nat.zero_le _, rfl, hin⟩
  | cons op ops ih =>
    intro hops st st' s s' rs h done ps hall hin hp hcut
    unfold runU at h
    cases e1 : UOp.run env st s op with
    | none => rw [e1] at h; cases h
    | some x =>
      obtain ⟨r, st1, s1⟩ := x
      rw [e1] at h
      simp only [Option.bind_eq_bind, Option.bind_some] at h
      cases e2 : runU env ops st1 s1 with
      | none => rw [e2] at h; cases h
      | some y =>
        obtain ⟨rs', st2, s2⟩ := y
        rw [e2] at h
        simp only [Option.bind_some, Option.pure_def, Option.some.injEq, Prod.mk.injEq] at h
        obtain ⟨rfl, rfl, rfl⟩ := h
        have hcut1 : Unsplit all ((stream all).length - s1.input.length) :=
          hcut [op] ops [r] st1 s1 rfl (by simp only [runU, e1, Option.bind_eq_bind, Option.bind_some]; rfl)
        have next : ∀ done' ps', all = done' ++ ps' → s1.inBuf ++ s1.input = stream ps' → Parsed K ps' →
            ∃ i, i ≤ ps'.length ∧ inputEvents rs' = (ps'.take i).map Piece.event ∧
              s2.inBuf ++ s2.input = stream (ps'.drop i) := by
          intro done' ps' a1 a2 a3
          refine ih (fun n t hh => hops n t (by simp [hh])) st1 st2 s1 s2 rs' e2 done' ps' a1 a2 a3 ?_
          intro ops1 ops2 rs1 st3 s3 h1 h2
          refine hcut (op :: ops1) ops2 (r :: rs1) st3 s3 (by rw [h1]; rfl) ?_
          unfold runU
          rw [e1]
          simp only [Option.bind_eq_bind, Option.bind_some, h2]
          rfl
        obtain ⟨b, got, u1, u2, u3, u4⟩ := run_flow hm e1
        have quiet : b = [] → inputEvents (r :: rs') = inputEvents rs' →
            ∃ i, i ≤ ps.length ∧ inputEvents (r :: rs') = (ps.take i).map Piece.event ∧
              s2.inBuf ++ s2.input = stream (ps.drop i) := by
          rintro rfl hq
          rw [hq]
          refine next done ps hall ?_ hp
          rw [← hin, u3, ← List.append_assoc, u4]; rfl
        cases u1 with
        | signal sig => exact quiet rfl rfl
        | resize sz => exact quiet rfl rfl
        | nothing => exact quiet rfl rfl
        | err e => exact quiet rfl rfl
        | flag f => exact quiet rfl rfl
        | unit => exact quiet rfl rfl
        | raw b =>
          exfalso
          cases op with
          | prepare cfg =>
            dsimp only [UOp.run] at e1
            cases hp : prepare env cfg s <;> rw [hp] at e1 <;> cases e1
          | restore =>
            dsimp only [UOp.run] at e1
            cases st with
            | nil => cases e1
            | cons p st =>
              dsimp only at e1
              cases hp : restore env p s <;> rw [hp] at e1 <;> cases e1
          | waitEvent t =>
            dsimp only [UOp.run] at e1
            cases hp : waitEvent env t s <;> rw [hp] at e1 <;> cases e1
          | readEvent t =>
            dsimp only [UOp.run] at e1
            cases hp : readEvent env t s <;> rw [hp] at e1 <;> cases e1
          | readRaw n t => exact hops n t (by simp)
          | write op =>
            dsimp only [UOp.run] at e1
            cases hp : liftW (op.run env.w) s <;> rw [hp] at e1 <;> cases e1
        | @event b ev hd =>
          have hev : ∃ t, op = .readEvent t ∧ readEvent env t s = .ok (some ev) s1 := by
            cases op with
            | prepare cfg =>
              dsimp only [UOp.run] at e1
              cases hp : prepare env cfg s <;> rw [hp] at e1 <;> cases e1
            | restore =>
              dsimp only [UOp.run] at e1
              cases st with
              | nil => cases e1
              | cons p st =>
                dsimp only at e1
                cases hp : restore env p s <;> rw [hp] at e1 <;> cases e1
            | waitEvent t =>
              dsimp only [UOp.run] at e1
              cases hp : waitEvent env t s <;> rw [hp] at e1 <;> cases e1
            | readEvent t =>
              refine ⟨t, rfl, ?_⟩
              dsimp only [UOp.run] at e1
              cases hp : readEvent env t s <;> rw [hp] at e1 <;> cases e1
              rfl
            | readRaw n t => exact absurd (by simp) (hops n t)
            | write op =>
              dsimp only [UOp.run] at e1
              cases hp : liftW (op.run env.w) s <;> rw [hp] at e1 <;> cases e1
          obtain ⟨t, rfl, hread⟩ := hev
          obtain ⟨g, n, k1, k2, k3⟩ := readEvent_peek hm hread (denotes_kind hd)
          have hbuf : (s.inBuf ++ g) ++ s1.input = stream ps := by
            rw [← hin, k1, List.append_assoc]
          have hne : s.inBuf ++ g ≠ [] := fun h => by rw [h] at k2; cases k2
          cases ps with
          | nil => exact absurd (List.append_eq_nil_iff.mp hbuf).1 hne
          | cons p ps' =>
            have hpre : s.inBuf ++ g <+: stream (p :: ps') := ⟨s1.input, hbuf⟩
            have hpb : p.bytes <+: stream (p :: ps') := ⟨stream ps', by simp [stream]⟩
            have hu : Unsplit (p :: ps') (s.inBuf ++ g).length := by
              rw [← unsplit_append done, ← hall]
              have e : (stream all).length - s1.input.length = (stream done).length + (s.inBuf ++ g).length := by
                have h1 : stream all = stream done ++ stream (p :: ps') := by rw [hall]; simp [stream]
                rw [h1, ← hbuf]
                simp only [List.length_append]
                omega
              rw [← e]
              exact hcut1
            rw [Unsplit] at hu
            by_cases hlt : (s.inBuf ++ g).length < p.bytes.length
            · rw [if_pos hlt] at hu
              rcases hu with hu | ⟨c, rfl⟩
              · exact absurd (List.length_eq_zero_iff.mp hu) hne
              · rw [peek_partial hpb hpre hne hlt] at k2
                cases k2
            · have hpb' : p.bytes <+: s.inBuf ++ g :=
                List.prefix_of_prefix_length_le hpb hpre (by omega)
              rw [peek_piece hm hp.1 hpre hpb'] at k2
              simp only [Option.some.injEq, Peek.event.injEq] at k2
              obtain ⟨hev, rfl⟩ := k2
              obtain ⟨x, hx⟩ := hpb'
              have h1 : s1.inBuf ++ s1.input = stream ps' := by
                have : stream (p :: ps') = p.bytes ++ stream ps' := by simp [stream]
                rw [this, ← hx, List.append_assoc, List.append_cancel_left_eq] at hbuf
                rw [k3, ← hx, List.drop_left]
                exact hbuf
              obtain ⟨i, g1, g2, g3⟩ := next (done ++ [p]) ps' (by rw [hall]; simp) h1 hp.2
              refine ⟨i + 1, by simpa using g1, ?_, by simpa using g3⟩
              have : inputEvents (URet.event (some ev) :: rs') = ev :: inputEvents rs' := by
                rcases denotes_kind hd with ⟨k, rfl⟩ | ⟨k, rfl⟩ <;> rfl
              rw [this, g2, ← hev]
              rfl

/-- **C29 (partial).** Streams of characters, key sequences and mouse reports in any order: however the
stream is split into reads, except inside a key's sequence or a report, and whatever else happens in
between (signals, failures, timeouts, output), `read_event` returns the events of the stream read as a
whole, in order, and the rest is still buffered or unread. A split inside a sequence makes the claim
false, see `C29_split_sequence`. -/
theorem C29_pieces_partial (env : REnv) (K : PMap SeqData) (hm : Table env.seqs K)
    (ops : List UOp) (hops : ∀ n t, UOp.readRaw n t ∉ ops) (st st' : List PrepareState) (s s' : US)
    (rs : List URet) (h : runU env ops st s = some (rs, st', s')) (ps : List Piece)
    (hin : s.inBuf ++ s.input = stream ps) (hp : Parsed K ps)
    (hcut : ∀ ops1 ops2 rs1 st1 s1, ops = ops1 ++ ops2 → runU env ops1 st s = some (rs1, st1, s1) →
      Unsplit ps ((stream ps).length - s1.input.length)) :
    ∃ i, i ≤ ps.length ∧ inputEvents rs = (ps.take i).map Piece.event ∧
      s'.inBuf ++ s'.input = stream (ps.drop i) :=
  pieces_run hm ps ops hops st st' s s' rs h [] ps rfl hin hp hcut

theorem parsed_drop {K : PMap SeqData} : ∀ (i : Nat) {ps : List Piece}, Parsed K ps → Parsed K (ps.drop i) := by
  intro i
  induction i with
  | zero => exact fun h => h
  | succ i ih =>
    intro ps h
    cases ps with
    | nil => trivial
    | cons p ps => exact ih h.2

theorem read_pieces {env : REnv} {K : PMap SeqData} (hm : Table env.seqs K) (t : Option Nat) :
    ∀ (ps : List Piece) (s : US), s.inBuf = stream ps → Parsed K ps →
    readMany env t ps.length s = .ok (ps.map fun p => some p.event) { s with inBuf := [] } := by
  intro ps
  induction ps with
  | nil =>
    intro s h _
    show Res.ok [] s = Res.ok [] { s with inBuf := [] }
    congr 1
    cases s
    simp only at h
    rw [h]; rfl
  | cons p ps ih =>
    intro s h hp
    have hs : stream (p :: ps) = p.bytes ++ stream ps := by simp [stream]
    have h1 := readEvent_of_peek (s := s) t (peek_piece hm hp.1 (h ▸ List.prefix_refl _)
      (by rw [h, hs]; exact List.prefix_append _ _)) (by rw [h, hs]; simp)
    have h2 : s.inBuf.drop p.bytes.length = stream ps := by rw [h, hs, List.drop_left]
    rw [h2] at h1
    rw [List.length_cons]
    unfold readMany
    rw [M.bind_apply, h1]
    dsimp only
    rw [M.bind_apply, ih _ rfl hp.2]
    rfl

/-- **C29 (partial).** And nothing is lost: once the whole stream has been read, further calls of
`read_event` return the events that are left. -/
theorem C29_pieces_complete_partial (env : REnv) (K : PMap SeqData) (hm : Table env.seqs K)
    (ops : List UOp) (hops : ∀ n t, UOp.readRaw n t ∉ ops) (st st' : List PrepareState) (s s' : US)
    (rs : List URet) (h : runU env ops st s = some (rs, st', s')) (ps : List Piece)
    (hin : s.inBuf ++ s.input = stream ps) (hp : Parsed K ps)
    (hcut : ∀ ops1 ops2 rs1 st1 s1, ops = ops1 ++ ops2 → runU env ops1 st s = some (rs1, st1, s1) →
      Unsplit ps ((stream ps).length - s1.input.length)) (hall : s'.input = []) (t : Option Nat) :
    ∃ rest s'', readMany env t rest.length s' = .ok rest s'' ∧ s''.inBuf = [] ∧
      (inputEvents rs).map some ++ rest = ps.map fun p => some p.event := by
  obtain ⟨i, h1, h2, h3⟩ := C29_pieces_partial env K hm ops hops st st' s s' rs h ps hin hp hcut
  rw [hall, List.append_nil] at h3
  refine ⟨_, _, by rw [List.length_map]; exact read_pieces hm t (ps.drop i) s' h3 (parsed_drop i hp), rfl, ?_⟩
  rw [h2, List.map_map]
  show List.map (fun p => some p.event) (ps.take i) ++ _ = _
  rw [← List.map_append, List.take_append_drop]

/-- **C29 (partial).** Two terminals that get the same stream in different chunks, neither of them ending a
read inside a sequence, report the same events, once both have reported all of it. -/
theorem C29_same_events_partial (env : REnv) (K : PMap SeqData) (hm : Table env.seqs K) (ps : List Piece)
    (hp : Parsed K ps) (opsA opsB : List UOp) (stA stA' stB stB' : List PrepareState)
    (a a' b b' : US) (ra rb : List URet)
    (hoA : ∀ n t, UOp.readRaw n t ∉ opsA) (hoB : ∀ n t, UOp.readRaw n t ∉ opsB)
    (hA : runU env opsA stA a = some (ra, stA', a')) (hB : runU env opsB stB b = some (rb, stB', b'))
    (iA : a.inBuf ++ a.input = stream ps) (iB : b.inBuf ++ b.input = stream ps)
    (cA : ∀ ops1 ops2 rs1 st1 s1, opsA = ops1 ++ ops2 → runU env ops1 stA a = some (rs1, st1, s1) →
      Unsplit ps ((stream ps).length - s1.input.length))
    (cB : ∀ ops1 ops2 rs1 st1 s1, opsB = ops1 ++ ops2 → runU env ops1 stB b = some (rs1, st1, s1) →
      Unsplit ps ((stream ps).length - s1.input.length))
    (eA : a'.inBuf ++ a'.input = []) (eB : b'.inBuf ++ b'.input = []) :
    inputEvents ra = inputEvents rb ∧ inputEvents ra = ps.map Piece.event := by
  have whole : ∀ i, i ≤ ps.length → [] = stream (ps.drop i) → ps.take i = ps := by
    intro i hi he
    cases hd : ps.drop i with
    | nil =>
      have := List.take_append_drop i ps
      rw [hd, List.append_nil] at this
      exact this
    | cons p r =>
      exfalso
      rw [hd] at he
      have h1 := parsed_drop i hp
      rw [hd] at h1
      have hb : p.bytes = [] := (List.append_eq_nil_iff.mp (by simpa [stream] using he.symm : p.bytes ++ stream r = [])).1
      cases p with
      | char c => exact encodeChar_ne_nil c hb
      | key q k => exact h1.1.1.1.2.1 hb
      | mouse i d1 d2 d3 pr => exact h1.1.1.1.2.1 (List.append_eq_nil_iff.mp hb).1
  obtain ⟨i, i1, i2, i3⟩ := C29_pieces_partial env K hm opsA hoA stA stA' a a' ra hA ps iA hp cA
  obtain ⟨j, j1, j2, j3⟩ := C29_pieces_partial env K hm opsB hoB stB stB' b b' rb hB ps iB hp cB
  rw [eA] at i3
  rw [eB] at j3
  rw [i2, j2, whole i i1 i3, whole j j1 j3]
  exact ⟨rfl, rfl⟩

/-! ### Examples -/

/-- A character of two bytes, a key whose sequence begins with that of another, a mouse report, and an
introducer that no report follows. -/
def demoPieces : List Piece :=
  [.char 'é', .key [0x1b, 0x4f, 0x51] (.f 2), .mouse [0x1b, 0x5b, 0x3c] [0x30] [0x30, 0x35] [0x33] false,
   .char '\x1b', .char '[', .char '<', .char 'x']

/-- The calls and reads: the first read ends inside `é`. -/
def demoReads : List Step := readSteps 1 ++ readSteps 4 ++ readSteps 10 ++ readSteps 3 ++ readSteps 1

/-- What `read_event` returns, called eight times. -/
example : ((runU demoEnvR (List.replicate 8 (.readEvent none)) []
      (demoUS [] (stream demoPieces) demoReads)).map fun x =>
        (inputEvents x.1, x.2.2.inBuf ++ x.2.2.input)) =
    some (demoPieces.map Piece.event, []) := by decide +kernel

/-- No read ends inside a sequence or the report: reads end after 1, 5, 15, 18 and 19 bytes. -/
example : (List.range 9).map (fun n => (runU demoEnvR (List.replicate n (.readEvent none)) []
      (demoUS [] (stream demoPieces) demoReads)).map fun x => 19 - x.2.2.input.length) =
      [some 0, some 1, some 5, some 5, some 15, some 18, some 18, some 18, some 19] ∧
    ∀ n ∈ [0, 1, 5, 15, 18, 19], Unsplit demoPieces n := by
  refine ⟨by decide +kernel, fun n hn => ?_⟩
  simp only [List.mem_cons, List.not_mem_nil, or_false] at hn
  rcases hn with rfl | rfl | rfl | rfl | rfl | rfl <;>
    simp [demoPieces, Unsplit, Piece.bytes, String.utf8EncodeChar]

/-- These are the pieces of the stream. -/
example : Parsed demoK demoPieces := by
  have other : ∀ (c : UInt8) (r : Bytes), c ≠ 0x1b → ∀ k, Begins demoK (c :: r) k →
      demoK k = some .xtermMouse ∧ ¬ BeginsReport ((c :: r).drop k.length) :=
    fun c r hc k hk => absurd hk (demo_no_begins c r hc k)
  refine ⟨other 0xc3 _ (by decide), ⟨?_, rfl⟩, ⟨?_, rfl, ?_⟩, ?_, other 0x5b _ (by decide),
    other 0x3c _ (by decide), other 0x78 _ (by decide), trivial⟩
  · exact longest_check (r := stream (demoPieces.drop 2)) (by decide) (by decide) (by decide +kernel)
  · exact longest_check (r := (stream (demoPieces.drop 2)).drop 3) (by decide) (by decide)
      (by decide +kernel)
  · unfold Digits; decide
  · intro k hk
    obtain ⟨v, hv⟩ := Option.ne_none_iff_exists'.mp hk.1
    have hp := hk.2.2
    rcases demoK_keys k v hv with rfl | rfl | rfl | rfl
    · exact absurd hp (by decide +kernel)
    · exact absurd hp (by decide +kernel)
    · exact absurd hp (by decide +kernel)
    · refine ⟨rfl, fun ⟨d1, d2, d3, e, r, h, D1, _⟩ => ?_⟩
      have h' : [0x78] = d1 ++ [59] ++ d2 ++ [59] ++ d3 ++ [e] ++ r := h
      have := congrArg List.length h'
      simp only [List.length_append, List.length_cons, List.length_nil] at this
      omega

end Mortal
