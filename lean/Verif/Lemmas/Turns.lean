import Verif.Spec.Turns
import Verif.Lemmas.Pieces

/-!
# Lemmas: what each read makes of the bytes that have arrived
-/

namespace Mortal
open Spec

/-- What heads the input is what is read. -/
theorem peek_of_heads {m : SequenceMap SeqData} {K : PMap SeqData} (hm : Table m K) {p : Piece}
    {b : Bytes} (h : p.Heads K b) : peekEvent m b = some (.event p.event p.bytes.length) := by
  obtain ⟨hp, hl⟩ := h
  cases p with
  | char c =>
    have hc : StartsWith b c := hp
    obtain ⟨s, t, hs, ht, hu⟩ := utf8Prefix_startsWith hc
    have hn := encodeChar_length c
    rw [hs] at hu hl ⊢
    show _ = some (Peek.event (.key (Key.ofChar c)) (String.utf8EncodeChar c).length)
    rw [hn]
    rcases peek_text hm ht hu with ⟨_, h⟩ | ⟨k, kk, h1, h2, h3⟩ | ⟨k, h1, h2, h3⟩
    · exact h
    · rcases hl with hl | ⟨k', g1, g2, _⟩
      · exact absurd h1.1 (hl k)
      · cases longest_unique h1 g1
        rw [h2] at g2; cases g2
    · rcases hl with hl | ⟨k', g1, g2, g3⟩
      · exact absurd h1.1 (hl k)
      · cases longest_unique h1 g1
        rw [h3, parse_report g3]
  | key seq kk =>
    exact peek_piece (p := .key seq kk) hm hl (List.prefix_refl b) hp
  | mouse i d1 d2 d3 press =>
    exact peek_piece (p := .mouse i d1 d2 d3 press) hm hl (List.prefix_refl b) hp

/-- Whatever is read heads the input. -/
theorem heads_of_peek {m : SequenceMap SeqData} {K : PMap SeqData} (hm : Table m K) {buf : Bytes}
    {ev : Event} {n : Nat} (h : peekEvent m buf = some (.event ev n)) :
    ∃ p : Piece, p.Heads K buf ∧ p.event = ev ∧ p.bytes.length = n := by
  have hne : buf ≠ [] := by rintro rfl; cases h
  rcases input_cases hne with ⟨c, hc⟩ | hu | hi
  · have hc0 : String.utf8EncodeChar c <+: buf := hc
    obtain ⟨s, t, rfl, ht, hp⟩ := utf8Prefix_startsWith hc
    have hl := encodeChar_length c
    rcases peek_text hm ht hp with ⟨hb, he⟩ | ⟨k, kk, hk, hv, he⟩ | ⟨k, hk, hv, he⟩
    · rw [he] at h; cases h
      exact ⟨.char c, ⟨hc0, .inl hb⟩, rfl, hl⟩
    · rw [he] at h; cases h
      exact ⟨.key k kk, ⟨hk.1.2.2, hk, hv⟩, rfl, rfl⟩
    · rw [he] at h
      cases hpm : parseMouseData ((encode (c :: s) ++ t).drop k.length) with
      | none => rw [hpm] at h; cases h
      | some o =>
        rw [hpm] at h
        cases o with
        | none =>
          cases h
          refine ⟨.char c, ⟨hc0, .inr ⟨k, hk, hv, ?_⟩⟩, rfl, hl⟩
          rintro ⟨d1, d2, d3, e, r, hb, g1, g2, g3, n1, n2, n3, hE⟩
          have hE' : e.toNat = 77 ∨ e.toNat = 109 := by
            rcases hE with rfl | rfl
            · exact .inl rfl
            · exact .inr rfl
          have hf := parseMouse_fields (r := r) g1 g2 g3 (by unfold u32Max; omega)
            (by unfold u32Max; omega) (by unfold u32Max; omega) hE'
          rw [← hb, hpm] at hf
          cases hl : usub (numeral d3) 1 with
          | none => rw [hl] at hf; cases hf
          | some l =>
          cases hc' : usub (numeral d2) 1 with
          | none => rw [hl, hc'] at hf; cases hf
          | some c' => rw [hl, hc'] at hf; cases hf
        | some x =>
          obtain ⟨me, len⟩ := x
          cases h
          obtain ⟨d1, d2, d3, r, e, hb, g1, g2, g3, n1, n2, n3, hE⟩ :=
            parseMouse_shape (b := (encode (c :: s) ++ t).drop k.length) (by rw [hpm]; simp)
          have hf := parseMouse_fields (r := r) g1 g2 g3 n1 n2 n3 hE
          rw [← hb, hpm] at hf
          cases hl : usub (numeral d3) 1 with
          | none => rw [hl] at hf; cases hf
          | some l =>
          cases hc' : usub (numeral d2) 1 with
          | none => rw [hl, hc'] at hf; cases hf
          | some c' =>
          rw [hl, hc'] at hf
          simp only [Option.bind_eq_bind, Option.bind_some, Option.pure_def, Option.some.injEq,
            Prod.mk.injEq] at hf
          obtain ⟨rfl, rfl⟩ := hf
          obtain ⟨z3, rfl⟩ := usub_some hl
          obtain ⟨z2, rfl⟩ := usub_some hc'
          have h3 : (encode (c :: s) ++ t).take k.length = k :=
            (List.prefix_iff_eq_take.mp hk.1.2.2).symm
          have hbuf : encode (c :: s) ++ t
              = k ++ (d1 ++ [59] ++ d2 ++ [59] ++ d3 ++ [e]) ++ r := by
            conv => lhs; rw [← List.take_append_drop k.length (encode (c :: s) ++ t)]
            rw [h3, hb]
            simp only [List.append_assoc]
          have hee : e = if (decide (e.toNat = 77)) then (77 : UInt8) else 109 := by
            rcases hE with hE | hE
            · rw [hE]; exact UInt8.toNat_inj.mp hE
            · rw [hE]; exact UInt8.toNat_inj.mp hE
          unfold u32Max at n1 n2 n3
          refine ⟨.mouse k d1 d2 d3 (decide (e.toNat = 77)), ⟨?_, hk, hv, g1, g2, g3, by omega,
            ⟨by omega, by omega⟩, by omega, by omega⟩, ?_, ?_⟩
          · show k ++ (d1 ++ [59] ++ d2 ++ [59] ++ d3 ++ [_]) <+: _
            rw [← hee, hbuf]
            exact List.prefix_append _ _
          · show Event.mouse _ = Event.mouse _
            rw [mouseInput_eq (by unfold u32Max; omega)]
            rfl
          · show (k ++ (d1 ++ [59] ++ d2 ++ [59] ++ d3 ++ [_])).length = _
            rw [← hee, List.length_append]
  · unfold peekEvent at h
    rw [utf8Prefix_unfinished hu] at h
    cases h
  · unfold peekEvent at h
    rw [utf8Prefix_illFormed hi] at h
    cases h

/-- What `try_read` finds. -/
theorem tryRead_cases {env : REnv} {K : PMap SeqData} (hm : Table env.seqs K) (s : US) :
    match tryReadM env s with
    | .ok none s' => s' = s ∧ Pending s.inBuf
    | .ok (some ev) s' => ∃ p : Piece, p.event = ev ∧ s.inBuf = p.bytes ++ s'.inBuf ∧ p.Heads K s.inBuf ∧
        s' = { s with inBuf := s'.inBuf }
    | .err e s' => s' = s ∧ e = .utf8 ∧ IllFormed s.inBuf
    | .stop _ => True := by
  unfold tryReadM
  rw [M.bind_apply]
  dsimp only [getS]
  unfold tryRead
  by_cases hb : s.inBuf = []
  · rw [if_pos hb]; exact ⟨rfl, .inl hb⟩
  · rw [if_neg hb]
    cases hp : peekEvent env.seqs s.inBuf with
    | none => exact trivial
    | some r =>
      cases r with
      | err =>
        refine ⟨rfl, rfl, ?_⟩
        rcases input_cases hb with ⟨c, hc⟩ | hu | hi
        · obtain ⟨x, t, hs, ht, hu⟩ := utf8Prefix_startsWith hc
          rw [hs] at hp hu
          rcases peek_text hm ht hu with ⟨_, h⟩ | ⟨k, kk, _, _, h⟩ | ⟨k, _, _, h⟩
          · rw [h] at hp; cases hp
          · rw [h] at hp; cases hp
          · rw [h] at hp; split at hp <;> cases hp
        · unfold peekEvent at hp; rw [utf8Prefix_unfinished hu] at hp; cases hp
        · exact hi
      | none =>
        refine ⟨rfl, .inr ?_⟩
        rcases input_cases hb with ⟨c, hc⟩ | hu | hi
        · obtain ⟨x, t, hs, ht, hu⟩ := utf8Prefix_startsWith hc
          rw [hs] at hp hu
          rcases peek_text hm ht hu with ⟨_, h⟩ | ⟨k, kk, _, _, h⟩ | ⟨k, _, _, h⟩
          · rw [h] at hp; cases hp
          · rw [h] at hp; cases hp
          · rw [h] at hp; split at hp <;> cases hp
        · exact hu
        · unfold peekEvent at hp; rw [utf8Prefix_illFormed hi] at hp; cases hp
      | event ev n =>
        obtain ⟨p, h1, h2, h3⟩ := heads_of_peek hm hp
        have hn : ¬ n > s.inBuf.length := by
          rw [← h3]; exact Nat.not_lt.mpr h1.1.length_le
        simp only [Option.bind_eq_bind, Option.bind_some]
        rw [if_neg hn]
        refine ⟨p, h2, ?_, h1, rfl⟩
        show s.inBuf = p.bytes ++ s.inBuf.drop n
        obtain ⟨r, hr⟩ := h1.1
        rw [← hr, ← h3, List.drop_left]

/-- What a call reads, and what it makes of it. -/
def TurnFlow (K : PMap SeqData) (op : UOp) (r : URet) (s s' : US) : Prop :=
  ∃ got, Turn K op r s.inBuf got s'.inBuf ∧ s.input = got ++ s'.input ∧
    s'.received = s.received ++ got

theorem TurnFlow.same {K : PMap SeqData} {op : UOp} {r : URet} {s s' : US}
    (h : Turn K op r s.inBuf [] s.inBuf) (hs : SameIo s s') : TurnFlow K op r s s' :=
  ⟨[], by rw [hs.1]; exact h, by rw [hs.2.2]; rfl, by rw [hs.2.1, List.append_nil]⟩

theorem silent_signal {r : Option Event} {sig : Signal}
    (h : r = none ∨ r = some (.signal sig) ∨ ∃ sz, r = some (.resize sz)) : Silent (.event r) := by
  rcases h with rfl | rfl | ⟨sz, rfl⟩
  · exact .nothing
  · exact .signal sig
  · exact .resize sz

theorem readEvent_turn {env : REnv} {K : PMap SeqData} (hm : Table env.seqs K) (t : Option Nat)
    (s : US) :
    match readEvent env t s with
    | .ok o s' => TurnFlow K (.readEvent t) (.event o) s s'
    | .err e s' => TurnFlow K (.readEvent t) (.err e) s s'
    | .stop _ => True := by
  unfold readEvent
  rw [M.bind_apply]
  have h0 := tryRead_cases hm s
  cases ht : tryReadM env s with
  | stop w => trivial
  | err e s1 =>
    rw [ht] at h0
    obtain ⟨rfl, rfl, h⟩ := h0
    exact ⟨[], .bad h, by simp, by simp⟩
  | ok o s1 =>
    rw [ht] at h0
    cases o with
    | some ev =>
      obtain ⟨p, rfl, h1, h2, h3⟩ := h0
      refine ⟨[], ?_, ?_, ?_⟩
      · exact .told h1 h2
      · rw [h3]; rfl
      · rw [h3]; simp
    | none =>
      obtain ⟨rfl, hpend⟩ := h0
      dsimp only
      rw [M.bind_apply]
      have h := readIntoBuffer_io env t s1
      cases hr : readIntoBuffer env t s1 with
      | stop w => trivial
      | err e s2 => rw [hr] at h; exact TurnFlow.same (.silent (.err e) hpend) h
      | ok a s2 =>
        rw [hr] at h
        cases a with
        | nothing => exact TurnFlow.same (.silent .nothing hpend) h
        | raw b =>
          obtain ⟨g1, g2, g3⟩ := h
          dsimp only
          have k0 := tryRead_cases hm s2
          cases ht2 : tryReadM env s2 with
          | stop w => trivial
          | err e s3 =>
            rw [ht2] at k0
            obtain ⟨rfl, rfl, h⟩ := k0
            refine ⟨b, ?_, g3, g2⟩
            rw [g1] at h ⊢; exact .badAfter hpend h
          | ok o s3 =>
            rw [ht2] at k0
            cases o with
            | none =>
              obtain ⟨rfl, h⟩ := k0
              refine ⟨b, ?_, g3, g2⟩
              rw [g1] at h ⊢; exact .notYet hpend h
            | some ev =>
              obtain ⟨p, rfl, k1, k2, k3⟩ := k0
              refine ⟨b, ?_, by rw [k3]; exact g3, by rw [k3]; exact g2⟩
              rw [g1] at k1 k2
              exact .toldAfter hpend k1 k2
        | event ev =>
          cases ev with
          | signal sig =>
            dsimp only
            have h4 := keeps_handleSignal (R := SameIo) env sig s2
            cases hh : handleSignal env sig s2 with
            | stop w => trivial
            | err e s3 => rw [hh] at h4; exact TurnFlow.same (.silent (.err e) hpend) (Frame.trans h h4)
            | ok o s3 =>
              rw [hh] at h4
              exact TurnFlow.same (.silent (silent_signal (handleSignal_value env sig _ _ _ hh)) hpend)
                (Frame.trans h h4)
          | _ => exact h.elim

theorem readRaw_turn {K : PMap SeqData} (env : REnv) (n : Nat) (t : Option Nat) (s : US) :
    match readRaw env n t s with
    | .ok o s' => TurnFlow K (.readRaw n t) (InRes.ret o) s s'
    | .err e s' => TurnFlow K (.readRaw n t) (.err e) s s'
    | .stop _ => True := by
  by_cases hb : s.inBuf = []
  · unfold readRaw
    rw [M.bind_apply]
    dsimp only [getS]
    rw [if_neg (by simpa using hb), M.bind_apply]
    have sil : ∀ {r : URet} {s' : US}, Silent r → SameIo s s' → TurnFlow K (.readRaw n t) r s s' := by
      intro r s' hr hs
      refine TurnFlow.same ?_ hs
      rw [hb]; exact .rawSilent hr
    have h := readInput_io env n t s
    cases hr : readInput env n t s with
    | stop w => trivial
    | err e s1 => rw [hr] at h; exact sil (.err e) h
    | ok a s1 =>
      rw [hr] at h
      cases a with
      | nothing => exact sil .nothing h
      | raw b =>
        refine ⟨b, ?_, h.2.2, h.2.1⟩
        rw [h.1, hb]; exact .rawRead
      | event ev =>
        cases ev with
        | signal sig =>
          dsimp only
          rw [M.bind_apply]
          have h4 := keeps_handleSignal (R := SameIo) env sig s1
          cases hh : handleSignal env sig s1 with
          | stop w => trivial
          | err e s3 => rw [hh] at h4; exact sil (.err e) (Frame.trans h h4)
          | ok o s3 =>
            rw [hh] at h4
            have hv := sil (silent_signal (handleSignal_value env sig _ _ _ hh)) (Frame.trans h h4)
            cases o <;> exact hv
        | _ => exact h.elim
  · rw [C30_raw_recovers_partial env s n t hb]
    exact ⟨[], .rawLeft hb, rfl, by simp⟩

theorem run_turn {env : REnv} {K : PMap SeqData} (hm : Table env.seqs K) {op : UOp}
    {st st' : List PrepareState} {s s' : US} {r : URet}
    (h : UOp.run env st s op = some (r, st', s')) : TurnFlow K op r s s' := by
  have close : ∀ {α : Type} (f : α → URet) (res : Res α),
      (∀ a s', res = .ok a s' → TurnFlow K op (f a) s s') →
      (∀ e s', res = .err e s' → TurnFlow K op (.err e) s s') → ∀ st0,
      (ret f res).map (fun (r, s) => (r, st0, s)) = some (r, st', s') → TurnFlow K op r s s' := by
    intro α f res h1 h2 st0 he
    cases res with
    | ok a s1 => cases he; exact h1 _ _ rfl
    | err e s1 => cases he; exact h2 _ _ rfl
    | stop w => cases he
  cases op with
  | prepare cfg =>
    dsimp only [UOp.run] at h
    have hk := keeps_prepare (R := SameIo) env cfg s
    cases hp : prepare env cfg s with
    | ok p s1 => rw [hp] at h hk; cases h; exact TurnFlow.same (.other nofun nofun .unit) hk
    | err e s1 => rw [hp] at h hk; cases h; exact TurnFlow.same (.other nofun nofun (.err e)) hk
    | stop w => rw [hp] at h; cases h
  | restore =>
    cases st with
    | nil => cases h; exact TurnFlow.same (.other nofun nofun .unit) (Frame.refl s)
    | cons p st =>
      refine close _ _ ?_ ?_ _ h
      · exact fun a s1 e => TurnFlow.same (.other nofun nofun .unit) ((keeps_restore (R := SameIo) env p).ok e)
      · exact fun x s1 e =>
          TurnFlow.same (.other nofun nofun (.err x)) ((keeps_restore (R := SameIo) env p).err e)
  | waitEvent t =>
    refine close _ _ ?_ ?_ _ h
    · exact fun a s1 e =>
        TurnFlow.same (.other nofun nofun (.flag a)) ((keeps_waitEvent (R := SameIo) env t).ok e)
    · exact fun x s1 e =>
        TurnFlow.same (.other nofun nofun (.err x)) ((keeps_waitEvent (R := SameIo) env t).err e)
  | readEvent t =>
    have hf := readEvent_turn hm t s
    refine close _ _ ?_ ?_ _ h
    · intro a s1 e; rw [e] at hf; exact hf
    · intro x s1 e; rw [e] at hf; exact hf
  | readRaw n t =>
    have hf := readRaw_turn (K := K) env n t s
    refine close _ _ ?_ ?_ _ h
    · intro a s1 e; rw [e] at hf; exact hf
    · intro x s1 e; rw [e] at hf; exact hf
  | write op =>
    refine close _ _ ?_ ?_ _ h
    · exact fun a s1 e => TurnFlow.same (.other nofun nofun .unit) ((keeps_liftW (R := SameIo) _).ok e)
    · exact fun x s1 e => TurnFlow.same (.other nofun nofun (.err x)) ((keeps_liftW (R := SameIo) _).err e)

/-! ## The reading is determined -/

theorem heads_unique {m : SequenceMap SeqData} {K : PMap SeqData} (hm : Table m K) {p q : Piece}
    {b : Bytes} (hp : p.Heads K b) (hq : q.Heads K b) : p.event = q.event ∧ p.bytes = q.bytes := by
  have h := (peek_of_heads hm hp).symm.trans (peek_of_heads hm hq)
  simp only [Option.some.injEq, Peek.event.injEq] at h
  refine ⟨h.1, ?_⟩
  rw [List.prefix_iff_eq_take.mp hp.1, List.prefix_iff_eq_take.mp hq.1, h.2]

theorem pending_not_heads {m : SequenceMap SeqData} {K : PMap SeqData} (hm : Table m K) {p : Piece}
    {b : Bytes} (h : Pending b) : ¬ p.Heads K b := by
  intro hp
  have h1 := peek_of_heads hm hp
  rcases h with rfl | h
  · cases h1
  · unfold peekEvent at h1
    rw [utf8Prefix_unfinished h] at h1
    cases h1

theorem bad_not_heads {m : SequenceMap SeqData} {K : PMap SeqData} (hm : Table m K) {p : Piece}
    {b : Bytes} (h : IllFormed b) : ¬ p.Heads K b := by
  intro hp
  have h1 := peek_of_heads hm hp
  unfold peekEvent at h1
  rw [utf8Prefix_illFormed h] at h1
  cases h1

theorem bad_not_pending {b : Bytes} (h : IllFormed b) : ¬ Pending b := by
  rintro (rfl | hp)
  · exact h.1 rfl
  · exact (C30_cases b h.1).2.2.2 ⟨hp, h⟩

theorem inputEvents_silent {r : URet} {rs : List URet} (h : Silent r) :
    inputEvents (r :: rs) = inputEvents rs := by cases h <;> rfl

/-- What a call tells of the input, and what it leaves, depends on what was left and what it read. -/
theorem turn_fun {m : SequenceMap SeqData} {K : PMap SeqData} (hm : Table m K) {op : UOp}
    {r r2 : URet} {b got b' b2 : Bytes} (h : Turn K op r b got b') (h2 : Turn K op r2 b got b2) :
    inputEvents [r] = inputEvents [r2] ∧ b' = b2 := by
  cases h with
  | @told t p b rest hb hp =>
    generalize hg : ([] : Bytes) = g0 at h2
    cases h2 with
    | @told _ q _ rest' hb' hq =>
      obtain ⟨h1, h3⟩ := heads_unique hm hp hq
      refine ⟨by rw [h1], ?_⟩
      rw [hb, h3] at hb'
      exact List.append_cancel_left hb'
    | toldAfter hpe _ _ => exact absurd hp (pending_not_heads hm hpe)
    | notYet hpe _ => exact absurd hp (pending_not_heads hm hpe)
    | bad hi => exact absurd hp (bad_not_heads hm hi)
    | badAfter hpe _ => exact absurd hp (pending_not_heads hm hpe)
    | silent _ hpe => exact absurd hp (pending_not_heads hm hpe)
    | other h _ _ => exact absurd rfl (h _)
  | @toldAfter t p b got rest hpe he hp =>
    generalize hg : got = g0 at h2
    cases h2 with
    | told _ hq => exact absurd hq (pending_not_heads hm hpe)
    | @toldAfter _ q _ _ rest' _ he' hq =>
      subst hg
      obtain ⟨h1, h3⟩ := heads_unique hm hp hq
      refine ⟨by rw [h1], ?_⟩
      rw [he, h3] at he'
      exact List.append_cancel_left he'
    | notYet _ h => subst hg; exact absurd hp (pending_not_heads hm h)
    | bad hi => exact absurd hpe (bad_not_pending hi)
    | badAfter _ h => subst hg; exact absurd hp (bad_not_heads hm h)
    | silent _ h => subst hg; rw [List.append_nil] at hp; exact absurd hp (pending_not_heads hm h)
    | other h _ _ => exact absurd rfl (h _)
  | @notYet t b got hpe hpe' =>
    generalize hg : got = g0 at h2
    cases h2 with
    | told _ hq => exact absurd hq (pending_not_heads hm hpe)
    | toldAfter _ _ hq => subst hg; exact absurd hq (pending_not_heads hm hpe')
    | notYet _ h => subst hg; exact ⟨rfl, rfl⟩
    | bad hi => exact absurd hpe (bad_not_pending hi)
    | badAfter _ h => subst hg; exact ⟨rfl, rfl⟩
    | silent hs h => subst hg; exact ⟨by rw [inputEvents_silent hs]; rfl, List.append_nil _⟩
    | other h _ _ => exact absurd rfl (h _)
  | @bad t b hi =>
    generalize hg : ([] : Bytes) = g0 at h2
    cases h2 with
    | told _ hq => exact absurd hq (bad_not_heads hm hi)
    | toldAfter hpe _ hq => exact absurd hpe (bad_not_pending hi)
    | notYet hpe h => exact absurd hpe (bad_not_pending hi)
    | bad _ => exact ⟨rfl, rfl⟩
    | badAfter hpe h => exact absurd hpe (bad_not_pending hi)
    | silent _ hpe => exact absurd hpe (bad_not_pending hi)
    | other h _ _ => exact absurd rfl (h _)
  | @badAfter t b got hpe hi =>
    generalize hg : got = g0 at h2
    cases h2 with
    | told _ hq => exact absurd hq (pending_not_heads hm hpe)
    | toldAfter _ _ hq => subst hg; exact absurd hq (bad_not_heads hm hi)
    | notYet _ h => subst hg; exact ⟨rfl, rfl⟩
    | bad h => exact absurd hpe (bad_not_pending h)
    | badAfter _ h => subst hg; exact ⟨rfl, rfl⟩
    | silent hs h => subst hg; exact ⟨by rw [inputEvents_silent hs]; rfl, List.append_nil _⟩
    | other h _ _ => exact absurd rfl (h _)
  | silent hs hpe =>
    generalize hg : ([] : Bytes) = g0 at h2
    cases h2 with
    | told _ hq => exact absurd hq (pending_not_heads hm hpe)
    | toldAfter _ _ hq => subst hg; rw [List.append_nil] at hq; exact absurd hq (pending_not_heads hm hpe)
    | notYet _ h => subst hg; exact ⟨inputEvents_silent hs, (List.append_nil _).symm⟩
    | bad h => exact absurd hpe (bad_not_pending h)
    | badAfter _ h => subst hg; exact ⟨inputEvents_silent hs, (List.append_nil _).symm⟩
    | silent hs' _ => exact ⟨by rw [inputEvents_silent hs, inputEvents_silent hs'], rfl⟩
    | other h _ _ => exact absurd rfl (h _)
  | rawLeft hb =>
    generalize hg : ([] : Bytes) = g0 at h2
    cases h2 with
    | rawLeft _ => exact ⟨rfl, rfl⟩
    | rawRead => exact absurd rfl hb
    | rawSilent _ => exact absurd rfl hb
    | other _ h _ => exact absurd rfl (h _ _)
  | rawRead =>
    cases h2 with
    | rawLeft hb => exact absurd rfl hb
    | rawRead => exact ⟨rfl, rfl⟩
    | rawSilent hs => exact ⟨by rw [inputEvents_silent hs]; rfl, rfl⟩
    | other _ h _ => exact absurd rfl (h _ _)
  | rawSilent hs =>
    cases h2 with
    | rawLeft hb => exact absurd rfl hb
    | rawRead => exact ⟨inputEvents_silent hs, rfl⟩
    | rawSilent hs' => exact ⟨by rw [inputEvents_silent hs, inputEvents_silent hs'], rfl⟩
    | other _ h _ => exact absurd rfl (h _ _)
  | other h1 h3 hs =>
    generalize hg : ([] : Bytes) = g0 at h2
    cases h2 with
    | told _ _ => exact absurd rfl (h1 _)
    | toldAfter _ _ _ => exact absurd rfl (h1 _)
    | notYet _ _ => exact absurd rfl (h1 _)
    | bad _ => exact absurd rfl (h1 _)
    | badAfter _ _ => exact absurd rfl (h1 _)
    | silent _ _ => exact absurd rfl (h1 _)
    | rawLeft _ => exact absurd rfl (h3 _ _)
    | rawRead => exact absurd rfl (h3 _ _)
    | rawSilent _ => exact absurd rfl (h3 _ _)
    | other _ _ hs' => exact ⟨by rw [inputEvents_silent hs, inputEvents_silent hs'], rfl⟩

theorem inputEvents_head (r : URet) (rs : List URet) :
    inputEvents (r :: rs) = inputEvents [r] ++ inputEvents rs := by
  cases r with
  | event o => cases o with
    | none => rfl
    | some ev => cases ev <;> rfl
  | _ => rfl

end Mortal
