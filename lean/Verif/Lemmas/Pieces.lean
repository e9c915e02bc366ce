import Verif.Spec.Pieces
import Verif.Props.Input

/-!
# Lemmas: streams of input
-/

namespace Mortal
open Spec

theorem longest_prefix {K : PMap SeqData} {b w k : Bytes} (h : Longest K w k) (hb : b <+: w)
    (hk : k <+: b) : Longest K b k :=
  ⟨⟨h.1.1, h.1.2.1, hk⟩, fun k' h' => h.2 k' ⟨h'.1, h'.2.1, h'.2.2.trans hb⟩⟩

theorem beginsReport_mono {b w : Bytes} (h : BeginsReport b) (hb : b <+: w) : BeginsReport w := by
  obtain ⟨d1, d2, d3, e, r, rfl, rest⟩ := h
  obtain ⟨t, rfl⟩ := hb
  exact ⟨d1, d2, d3, e, r ++ t, by simp only [List.append_assoc], rest⟩

theorem parse_report {b : Bytes} (h : ¬ BeginsReport b) : parseMouseData b = some none := by
  refine Classical.byContradiction fun hn => h ?_
  obtain ⟨d1, d2, d3, r, e, h1, h2, h3, h4, h5, h6, h7, h8⟩ := parseMouse_shape hn
  unfold u32Max at h5 h6 h7
  refine ⟨d1, d2, d3, e, r, h1, h2, h3, h4, by omega, by omega, by omega, ?_⟩
  rcases h8 with h | h
  · exact .inl (UInt8.toNat_inj.mp h)
  · exact .inr (UInt8.toNat_inj.mp h)

/-- A piece that has arrived is what is read. -/
theorem peek_piece {m : SequenceMap SeqData} {K : PMap SeqData} (hm : Table m K) {p : Piece}
    {w b : Bytes} (hl : p.Leads K w) (hb : b <+: w) (hp : p.bytes <+: b) :
    peekEvent m b = some (.event p.event p.bytes.length) := by
  cases p with
  | char c =>
    have hc : StartsWith b c := hp
    obtain ⟨s, t, hs, ht, hu⟩ := utf8Prefix_startsWith hc
    have hn := encodeChar_length c
    rw [hs] at hu hb ⊢
    show _ = some (Peek.event (.key (Key.ofChar c)) (String.utf8EncodeChar c).length)
    rw [hn]
    rcases peek_text hm ht hu with ⟨_, h⟩ | ⟨k, kk, h1, h2, h3⟩ | ⟨k, h1, h2, h3⟩
    · exact h
    · have := (hl k ⟨h1.1.1, h1.1.2.1, h1.1.2.2.trans hb⟩).1
      rw [h2] at this; cases this
    · have h4 := (hl k ⟨h1.1.1, h1.1.2.1, h1.1.2.2.trans hb⟩).2
      rw [h3, parse_report fun h => h4 (beginsReport_mono h ?_)]
      obtain ⟨x, hx⟩ := hb
      rw [← hx]
      rw [List.drop_append_of_le_length h1.1.2.2.length_le]
      exact List.prefix_append _ _
  | key seq kk =>
    obtain ⟨h1, h2⟩ := hl
    have hL : Longest K b seq := longest_prefix h1 hb hp
    obtain ⟨c, hc, _⟩ := begins_char hm.utf8 hL.1
    obtain ⟨s, t, hs, ht, hu⟩ := utf8Prefix_startsWith hc
    rw [hs] at hu hL ⊢
    rcases peek_text hm ht hu with ⟨h, _⟩ | ⟨k, kk', g1, g2, g3⟩ | ⟨k, g1, g2, g3⟩
    · exact absurd hL.1 (h seq)
    · cases longest_unique hL g1
      rw [h2] at g2
      cases g2
      exact g3
    · cases longest_unique hL g1
      rw [h2] at g2
      cases g2
  | mouse i d1 d2 d3 press =>
    obtain ⟨h1, h2, D1, D2, D3, n1, ⟨z2, n2⟩, z3, n3⟩ := hl
    have hi : i <+: b := (List.prefix_append i _).trans hp
    have hL : Longest K b i := longest_prefix h1 hb hi
    obtain ⟨c, hc, _⟩ := begins_char hm.utf8 hL.1
    obtain ⟨s, t, hs, ht, hu⟩ := utf8Prefix_startsWith hc
    have he : (if press then (77 : UInt8) else 109).toNat = 77 ∨
        (if press then (77 : UInt8) else 109).toNat = 109 := by cases press <;> decide
    obtain ⟨r, hr⟩ := hp
    have hd : b.drop i.length =
        d1 ++ [59] ++ d2 ++ [59] ++ d3 ++ [if press then 77 else 109] ++ r := by
      rw [← hr]
      show (i ++ (d1 ++ [59] ++ d2 ++ [59] ++ d3 ++ [if press then 77 else 109]) ++ r).drop i.length = _
      rw [List.append_assoc, List.drop_left]
    rw [hs] at hu hL hd ⊢
    rcases peek_text hm ht hu with ⟨h, _⟩ | ⟨k, kk', g1, g2, g3⟩ | ⟨k, g1, g2, g3⟩
    · exact absurd hL.1 (h i)
    · cases longest_unique hL g1
      rw [h2] at g2
      cases g2
    · cases longest_unique hL g1
      rw [g3, hd, parseMouse_fields D1 D2 D3 (by unfold u32Max; omega) (by unfold u32Max; omega)
        (by unfold u32Max; omega) he]
      have u3 : usub (numeral d3) 1 = some (numeral d3 - 1) := by unfold usub; rw [if_pos (by omega)]
      have u2 : usub (numeral d2) 1 = some (numeral d2 - 1) := by unfold usub; rw [if_pos (by omega)]
      have ep : decide ((if press then (77 : UInt8) else 109).toNat = 77) = press := by
        cases press <;> rfl
      rw [u3, u2, ep, mouseInput_eq (by unfold u32Max; omega)]
      simp only [Option.bind_eq_bind, Option.bind_some, Option.pure_def, Piece.bytes, Piece.event,
        List.length_append, sgrEvent]

/-- A character that has not arrived as a whole is not read. -/
theorem peek_partial {m : SequenceMap SeqData} {c : Char} {w b : Bytes}
    (hw : String.utf8EncodeChar c <+: w) (hb : b <+: w) (hne : b ≠ [])
    (hs : b.length < (String.utf8EncodeChar c).length) : peekEvent m b = some .none := by
  have hp : b <+: String.utf8EncodeChar c :=
    List.prefix_of_prefix_length_le hb hw (Nat.le_of_lt hs)
  obtain ⟨t, ht⟩ := hp
  have hu : Unfinished b := ⟨hne, c, t, fun h => by
    rw [h, List.append_nil] at ht; rw [← ht] at hs; omega, ht.symm⟩
  unfold peekEvent
  rw [utf8Prefix_unfinished hu]

theorem unsplit_append : ∀ (a ps : List Piece) (n : Nat),
    Unsplit (a ++ ps) ((stream a).length + n) ↔ Unsplit ps n := by
  intro a
  induction a with
  | nil => intro ps n; simp [stream]
  | cons p a ih =>
    intro ps n
    have e : (stream (p :: a)).length = p.bytes.length + (stream a).length := by simp [stream]
    rw [List.cons_append, e]
    rw [Unsplit, if_neg (by omega), show p.bytes.length + (stream a).length + n - p.bytes.length
      = (stream a).length + n by omega]
    exact ih ps n

/-- The event `read_event` returns is what the buffer, with what it has read, begins with. -/
theorem readEvent_peek {env : REnv} {K : PMap SeqData} (hm : Table env.seqs K) {t : Option Nat}
    {s s' : US} {ev : Event} (h : readEvent env t s = .ok (some ev) s')
    (hk : (∃ k, ev = .key k) ∨ ∃ x, ev = .mouse x) :
    ∃ got n, s.input = got ++ s'.input ∧ peekEvent env.seqs (s.inBuf ++ got) = some (.event ev n) ∧
      s'.inBuf = (s.inBuf ++ got).drop n := by
  have try_ : ∀ {x y : US}, tryReadM env x = .ok (some ev) y → ∃ n,
      peekEvent env.seqs x.inBuf = some (.event ev n) ∧ y = { x with inBuf := x.inBuf.drop n } := by
    intro x y hx
    unfold tryReadM at hx
    rw [M.bind_apply] at hx
    dsimp only [getS] at hx
    unfold tryRead at hx
    by_cases hb : x.inBuf = []
    · rw [if_pos hb] at hx; cases hx
    · rw [if_neg hb] at hx
      cases hp : peekEvent env.seqs x.inBuf with
      | none => rw [hp] at hx; cases hx
      | some r =>
        rw [hp] at hx
        cases r with
        | err => cases hx
        | none => cases hx
        | event ev' n =>
          obtain ⟨h1, h2, h3⟩ := peek_denotes hm hp
          simp only [Option.bind_eq_bind, Option.bind_some] at hx
          rw [if_neg (by omega)] at hx
          cases hx
          exact ⟨n, rfl, rfl⟩
  unfold readEvent at h
  rw [M.bind_apply] at h
  have h0 := tryReadM_io hm s
  cases ht : tryReadM env s with
  | stop w => rw [ht] at h; cases h
  | err e s1 => rw [ht] at h; cases h
  | ok o s1 =>
    rw [ht] at h h0
    cases o with
    | some ev' =>
      cases h
      obtain ⟨n, h1, h2⟩ := try_ ht
      exact ⟨[], n, by rw [h2]; rfl, by rw [List.append_nil]; exact h1, by rw [h2, List.append_nil]⟩
    | none =>
      dsimp only at h h0
      subst h0
      rw [M.bind_apply] at h
      have h2 := readIntoBuffer_io env t s1
      cases hr : readIntoBuffer env t s1 with
      | stop w => rw [hr] at h; cases h
      | err e s2 => rw [hr] at h; cases h
      | ok a s2 =>
        rw [hr] at h h2
        cases a with
        | nothing => cases h
        | raw b =>
          obtain ⟨g1, g2, g3⟩ := h2
          dsimp only at h
          obtain ⟨n, k1, k2⟩ := try_ h
          exact ⟨b, n, by rw [k2]; exact g3, by rw [← g1]; exact k1, by rw [k2, ← g1]⟩
        | event e =>
          cases e with
          | signal sig =>
            dsimp only at h
            rcases handleSignal_value env sig _ _ _ h with h | h | ⟨sz, h⟩
            · cases h
            · cases h; rcases hk with ⟨k, hk⟩ | ⟨k, hk⟩ <;> cases hk
            · cases h; rcases hk with ⟨k, hk⟩ | ⟨k, hk⟩ <;> cases hk
          | _ => exact h2.elim

end Mortal
