import Verif.Spec.VtInput
import Verif.Lemmas.Pieces
import Verif.Lemmas.VtClose

/-! # What an xterm sends, read with the table of an xterm -/

namespace Mortal
open Spec

/-! ## The table -/

/-- All strings of the table. -/
def xtermSeqs : List Bytes := [0x1b, 0x5b, 0x3c] :: knownCaps.filterMap xtermKeys

theorem keysOf_ascii {info : KeyCap → Option Bytes} {l : List KeyCap} {b : Bytes}
    (h : ∀ x ∈ b, x.toNat < 128) : keysOf info l b = l.filter fun k => info k == some b := by
  unfold keysOf
  refine List.filter_congr fun k _ => ?_
  rw [Bool.eq_iff_iff, decide_eq_true_iff, beq_iff_eq]
  exact ⟨And.left, fun e => ⟨e, h⟩⟩

theorem xterm_known {k : Bytes} (h : tableSpec xtermKeys xtermName k ≠ none) : k ∈ xtermSeqs := by
  unfold tableSpec at h
  by_cases hx : XtermName xtermName ∧ k = [0x1b, 0x5b, 0x3c]
  · rw [hx.2]; exact List.mem_cons_self
  · rw [if_neg hx] at h
    cases hl : (keysOf xtermKeys knownCaps k).getLast? with
    | none => rw [hl] at h; exact (h rfl).elim
    | some c =>
      have := List.mem_of_getLast? hl
      unfold keysOf at this
      rw [List.mem_filter] at this
      exact List.mem_cons_of_mem _ (List.mem_filterMap.mpr ⟨c, this.1, (of_decide_eq_true this.2).1⟩)

theorem xterm_mouse : tableSpec xtermKeys xtermName [0x1b, 0x5b, 0x3c] = some .xtermMouse := by
  unfold tableSpec
  rw [if_pos ⟨Or.inr ⟨asc "256color", by decide⟩, rfl⟩]

/-- The keys that the table is for. -/
def tableKeys : List Key := knownCaps.map keyMeant

theorem xterm_key : ∀ k ∈ tableKeys, tableSpec xtermKeys xtermName (xtermKeyBytes true k) = some (.key k) ∧
    xtermKeyBytes true k ≠ [] := by
  intro k hk
  have h : ∀ k ∈ tableKeys, xtermKeyBytes true k ≠ [0x1b, 0x5b, 0x3c] ∧
      (∀ x ∈ xtermKeyBytes true k, x.toNat < 128) ∧ xtermKeyBytes true k ≠ [] ∧
      (knownCaps.filter fun c => xtermKeys c == some (xtermKeyBytes true k)).getLast?.map keyMeant = some k := by
    decide +kernel
  obtain ⟨h1, h2, h3, h4⟩ := h k hk
  refine ⟨?_, h3⟩
  unfold tableSpec
  rw [if_neg fun e => h1 e.2, keysOf_ascii h2]
  cases hl : (knownCaps.filter fun c => xtermKeys c == some (xtermKeyBytes true k)).getLast? with
  | none => rw [hl] at h4; cases h4
  | some c =>
    rw [hl] at h4
    injection h4 with h4
    rw [← h4]; rfl

theorem xterm_esc : ∀ k ∈ xtermSeqs, ∃ b l, k = 0x1b :: b :: l ∧ (b = 0x5b ∨ b = 0x4f) := by
  have h : ∀ k ∈ xtermSeqs, k.head? = some 0x1b ∧ (k[1]? = some 0x5b ∨ k[1]? = some 0x4f) := by decide +kernel
  intro k hk
  obtain ⟨h1, h2⟩ := h k hk
  match k, h1, h2 with
  | a :: b :: l, h1, h2 =>
    injection h1 with h1
    subst h1
    refine ⟨b, l, rfl, ?_⟩
    rcases h2 with h2 | h2 <;> injection h2 with h2 <;> simp [h2]
  | [a], _, h2 => rcases h2 with h2 | h2 <;> cases h2

theorem xterm_prefix_free : ∀ k ∈ xtermSeqs, ∀ k' ∈ xtermSeqs, k.isPrefixOf k' = true → k = k' := by
  decide +kernel

/-- A string of the table is the longest that the input begins with. -/
theorem xterm_longest {k b : Bytes} (h : tableSpec xtermKeys xtermName k ≠ none) (hn : k ≠ [])
    (hp : k <+: b) : Longest (tableSpec xtermKeys xtermName) b k := by
  refine ⟨⟨h, hn, hp⟩, ?_⟩
  rintro k' ⟨h1, -, h3⟩
  have a := xterm_known h
  have b := xterm_known h1
  rcases List.prefix_or_prefix_of_prefix hp h3 with e | e
  · rw [xterm_prefix_free k a k' b (List.isPrefixOf_iff_prefix.mpr e)]
  · exact e.length_le

/-! ## The pieces of what the user does -/

/-- Where the mouse's button goes up. -/
def Spec.MouseAct.ends : MouseAct → Bool
  | .release _ => true
  | _ => false

/-- Its input. -/
def Spec.MouseAct.input : MouseAct → MouseInput
  | .press b => .buttonPressed b
  | .release b => .buttonReleased b
  | .wheelUp => .wheelUp
  | .wheelDown => .wheelDown
  | .move _ => .motion

/-- What one thing the user does is in the input. -/
def actPiece : UserAct → Piece
  | .key k =>
    match k with
    | .char c => .char c
    | .escape => .char '\x1b'
    | .enter => .char '\r'
    | .tab => .char '\t'
    | .backspace => .char '\x7f'
    | .ctrl c => .char (Char.ofNat (c.toNat - 96))
    | k => .key (xtermKeyBytes true k) k
  | .mouse a p m => .mouse [0x1b, 0x5b, 0x3c] (decimal (a.number + modsNumber m)) (decimal (p.column + 1))
      (decimal (p.line + 1)) (!a.ends)

theorem ctrl_cases {c : Char} (h : OnKeyboard (.ctrl c)) :
    c ∈ ("abcdefghklnopqrstuvwxyz".toList) := by
  obtain ⟨h1, h2, h3, h4, h5⟩ := h
  have a : 97 ≤ c.toNat := h1
  have b : c.toNat ≤ 122 := h2
  have key : ∀ n ∈ List.range 123, (97 ≤ n ∧ Char.ofNat n ≠ 'i' ∧ Char.ofNat n ≠ 'j' ∧ Char.ofNat n ≠ 'm') →
      Char.ofNat n ∈ ("abcdefghklnopqrstuvwxyz".toList) := by decide +kernel
  have := key c.toNat (List.mem_range.mpr (by omega))
  rw [Char.ofNat_toNat] at this
  exact this ⟨a, h3, h4, h5⟩

theorem ctrl_piece {c : Char} (h : OnKeyboard (.ctrl c)) :
    String.utf8EncodeChar (Char.ofNat (c.toNat - 96)) = [UInt8.ofNat (c.toNat - 96)] ∧
    Key.ofChar (Char.ofNat (c.toNat - 96)) = .ctrl c ∧ Char.ofNat (c.toNat - 96) ≠ '\x1b' := by
  have key : ∀ c ∈ ("abcdefghklnopqrstuvwxyz".toList),
      String.utf8EncodeChar (Char.ofNat (c.toNat - 96)) = [UInt8.ofNat (c.toNat - 96)] ∧
      Key.ofChar (Char.ofNat (c.toNat - 96)) = .ctrl c ∧ Char.ofNat (c.toNat - 96) ≠ '\x1b' := by decide +kernel
  exact key c (ctrl_cases h)

theorem char_plain {c : Char} (h : ¬ Control c) : Key.ofChar c = .char c ∧ c ≠ '\x1b' := by
  have n1 : ∀ d : Char, Control d → c ≠ d := fun d hd e => h (e ▸ hd)
  have e1 := n1 '\x1b' (by decide)
  refine ⟨?_, e1⟩
  unfold Key.ofChar
  rw [if_neg e1, if_neg (n1 _ (by decide)), if_neg (by rintro (e | e) <;> exact n1 _ (by decide) e),
    if_neg (n1 _ (by decide)), if_neg]
  intro hc
  unfold isCtrl at hc
  rw [beq_iff_eq] at hc
  refine h (Or.inl ?_)
  rw [← hc]
  exact Nat.lt_of_le_of_lt Nat.and_le_right (by decide)

theorem fkey_table {n : Nat} (h : OnKeyboard (.f n)) : Key.f n ∈ tableKeys := by
  obtain ⟨h1, h2⟩ := h
  have key : ∀ n, n ≤ 12 → 1 ≤ n → Key.f n ∈ tableKeys := by decide +kernel
  exact key n h2 h1

/-- The modes that make an xterm send what the table is for. -/
structure Told (v : Vt) : Prop where
  keys : v.mode 1 = true
  form : v.mode 1006 = true

/-- Keys, and what the mouse does if it is reported. -/
def Sends (v : Vt) : UserAct → Prop
  | .key _ => True
  | .mouse a _ _ => v.reports a = true ∧ v.mode 1006 = true

theorem actPiece_bytes {v : Vt} (hv : v.mode 1 = true) {a : UserAct} (hp : a.Possible) (hs : Sends v a) :
    (actPiece a).bytes = v.sends a := by
  cases a with
  | key k =>
    show _ = xtermKeyBytes (v.mode 1) k
    rw [hv]
    cases k with
    | ctrl c => exact (ctrl_piece hp).1
    | _ => rfl
  | mouse a p m =>
    show _ = if v.reports a then _ else []
    rw [if_pos hs.1, if_pos hs.2]
    cases a <;>
    · show [0x1b, 0x5b, 0x3c] ++ _ = _
      simp only [List.append_assoc]
      rfl

theorem sgr_act {a : MouseAct} {p : Cursor} {m : ModifierState} (h : (UserAct.mouse a p m).Possible) :
    sgrEvent (a.number + modsNumber m) (p.column + 1) (p.line + 1) (!a.ends) =
      { position := p, input := a.input, modifiers := m } := by
  have hb := h.2.2
  obtain ⟨s, al, ct⟩ := m
  unfold sgrEvent
  cases a with
  | press b => cases b <;> first | exact hb.elim | (cases s <;> cases al <;> cases ct <;> rfl)
  | release b => cases b <;> first | exact hb.elim | (cases s <;> cases al <;> cases ct <;> rfl)
  | wheelUp => cases s <;> cases al <;> cases ct <;> rfl
  | wheelDown => cases s <;> cases al <;> cases ct <;> rfl
  | move b =>
    cases b with
    | none => cases s <;> cases al <;> cases ct <;> rfl
    | some b => cases b <;> first | exact hb.elim | (cases s <;> cases al <;> cases ct <;> rfl)

theorem actPiece_event {a : UserAct} (hp : a.Possible) : (actPiece a).event = a.event := by
  cases a with
  | key k =>
    cases k with
    | char c => exact congrArg Event.key (char_plain hp).1
    | ctrl c => exact congrArg Event.key (ctrl_piece hp).2.1
    | _ => rfl
  | mouse a p m =>
    show Event.mouse (sgrEvent (numeral _) (numeral _) (numeral _) _) = Event.mouse _
    rw [(decimal_digits _).2, (decimal_digits _).2, (decimal_digits _).2]
    rw [sgr_act hp]
    cases a <;> rfl

theorem firstByte {c : Char} {x : UInt8} (hx : x.toNat < 128) {l : Bytes}
    (h : String.utf8EncodeChar c = x :: l) : c.toNat = x.toNat := by
  have v : (Char.ofNat x.toNat).toNat = x.toNat := toNat_ofNat (by omega)
  have e : String.utf8EncodeChar (Char.ofNat x.toNat) = [x] := by
    rw [enc1 (by omega), v]
    exact congrArg (· :: []) (u8_ofNat_eq rfl)
  have a := decodeOne_encode c []
  have b := decodeOne_encode (Char.ofNat x.toNat) l
  rw [List.append_nil, h] at a
  rw [e] at b
  have := a.symm.trans b
  injection this with t _
  rw [t, v]

theorem ascii_encodeChar {c : Char} (h : c.toNat < 128) : String.utf8EncodeChar c = [UInt8.ofNat c.toNat] := by
  rw [enc1 (by omega)]

/-- Input that begins with a character other than Escape begins with nothing of the table. -/
theorem no_begins {c : Char} (hc : c ≠ '\x1b') (r k : Bytes) :
    ¬ Begins (tableSpec xtermKeys xtermName) (String.utf8EncodeChar c ++ r) k := by
  rintro ⟨h1, -, h3⟩
  obtain ⟨b, l, rfl, -⟩ := xterm_esc k (xterm_known h1)
  cases he : String.utf8EncodeChar c with
  | nil => exact encodeChar_ne_nil c he
  | cons x t =>
    rw [he, List.cons_append, List.cons_prefix_cons] at h3
    obtain ⟨rfl, -⟩ := h3
    exact hc (char_ext (firstByte (by decide) he))

/-- Neither does Escape, if the byte after it is neither `[` nor `O`. -/
theorem no_begins_esc {r : Bytes} (hr : ∀ b l, r = b :: l → b ≠ 0x5b ∧ b ≠ 0x4f) (k : Bytes) :
    ¬ Begins (tableSpec xtermKeys xtermName) (0x1b :: r) k := by
  rintro ⟨h1, -, h3⟩
  obtain ⟨b, l, rfl, hb⟩ := xterm_esc k (xterm_known h1)
  rw [List.cons_prefix_cons] at h3
  obtain ⟨t, ht⟩ := h3.2
  obtain ⟨n1, n2⟩ := hr b (l ++ t) ht.symm
  rcases hb with e | e
  · exact n1 e
  · exact n2 e

/-- The first byte of what the user does is `[` or `O` only if that character is typed. -/
theorem act_first {a : UserAct} (hp : a.Possible) {b : UInt8} {l : Bytes} (h : (actPiece a).bytes = b :: l)
    (hb : b = 0x5b ∨ b = 0x4f) : ∃ c, a = .key (.char c) ∧ (c = '[' ∨ c = 'O') := by
  have of : ∀ c : Char, String.utf8EncodeChar c = b :: l → c = '[' ∨ c = 'O' := by
    intro c e
    rcases hb with rfl | rfl
    · exact Or.inl (char_ext (firstByte (by decide) e))
    · exact Or.inr (char_ext (firstByte (by decide) e))
  have seq : ∀ k ∈ tableKeys, xtermKeyBytes true k = b :: l → False := by
    intro k hk e
    have h1 : ∀ k ∈ tableKeys, (xtermKeyBytes true k).head? = some 0x1b := by decide +kernel
    have := h1 k hk
    rw [e] at this
    injection this with this
    subst this
    revert hb; decide
  cases a with
  | key k =>
    cases k with
    | char c => exact ⟨c, rfl, of c h⟩
    | ctrl c =>
      exfalso
      have o := of _ h
      have k := (ctrl_piece hp).2.1
      rcases o with o | o <;> rw [o] at k
      · exact Key.noConfusion ((show Key.char '[' = _ from k))
      · exact Key.noConfusion ((show Key.char 'O' = _ from k))
    | escape => rcases of '\x1b' h with o | o <;> exact absurd o (by decide)
    | enter => rcases of '\r' h with o | o <;> exact absurd o (by decide)
    | tab => rcases of '\t' h with o | o <;> exact absurd o (by decide)
    | backspace => rcases of '\x7f' h with o | o <;> exact absurd o (by decide)
    | f n => exact (seq _ (fkey_table hp) h).elim
    | up => exact (seq .up (by decide +kernel) h).elim
    | down => exact (seq .down (by decide +kernel) h).elim
    | left => exact (seq .left (by decide +kernel) h).elim
    | right => exact (seq .right (by decide +kernel) h).elim
    | delete => exact (seq .delete (by decide +kernel) h).elim
    | insert => exact (seq .insert (by decide +kernel) h).elim
    | home => exact (seq .home (by decide +kernel) h).elim
    | «end» => exact (seq .end (by decide +kernel) h).elim
    | pageUp => exact (seq .pageUp (by decide +kernel) h).elim
    | pageDown => exact (seq .pageDown (by decide +kernel) h).elim
  | mouse a p m =>
    exfalso
    injection h with h _
    subst h
    revert hb; decide

theorem stream_cons (p : Piece) (ps : List Piece) : stream (p :: ps) = p.bytes ++ stream ps := by
  simp [stream]

theorem act_bytes_ne {a : UserAct} (hp : a.Possible) : (actPiece a).bytes ≠ [] := by
  have seq : ∀ k ∈ tableKeys, xtermKeyBytes true k ≠ [] := by decide +kernel
  cases a with
  | key k =>
    cases k with
    | char c => exact encodeChar_ne_nil c
    | ctrl c => exact encodeChar_ne_nil _
    | f n => exact seq _ (fkey_table hp)
    | _ => decide +kernel
  | mouse a p m => exact fun h => by cases h

theorem stream_acts {v : Vt} (hv : v.mode 1 = true) : ∀ {acts : List UserAct}, (∀ a ∈ acts, a.Possible) →
    (∀ a ∈ acts, Sends v a) → stream (acts.map actPiece) = v.sent acts
  | [], _, _ => rfl
  | a :: acts, hp, hs => by
    rw [List.map_cons, stream_cons, actPiece_bytes hv (hp a List.mem_cons_self) (hs a List.mem_cons_self),
      stream_acts hv (fun x hx => hp x (List.mem_cons_of_mem _ hx)) fun x hx => hs x (List.mem_cons_of_mem _ hx)]
    rfl

/-- Every string of the table is what a key sends, or how a report of the mouse begins. -/
theorem xterm_origin : ∀ s ∈ xtermSeqs, s = [0x1b, 0x5b, 0x3c] ∨
    ∃ k, OnKeyboard k ∧ k ≠ .escape ∧ xtermKeyBytes true k = s := by
  have h : ∀ s ∈ xtermSeqs, s = [0x1b, 0x5b, 0x3c] ∨ ∃ k ∈ tableKeys, k ≠ .escape ∧ xtermKeyBytes true k = s := by
    decide +kernel
  have on : ∀ k ∈ tableKeys, OnKeyboard k := by
    intro k hk
    have : ∀ k ∈ tableKeys, (∀ c, k ≠ .char c) ∧ (∀ c, k ≠ .ctrl c) ∧ ∀ n, k = .f n → 1 ≤ n ∧ n ≤ 12 := by
      intro k hk
      simp only [tableKeys, knownCaps, List.map_append, List.map_cons, List.map_nil, List.map_map, List.mem_append,
        List.mem_cons, List.not_mem_nil, or_false, List.mem_map, List.mem_range] at hk
      rcases hk with hk | ⟨n, hn, rfl⟩
      · rcases hk with rfl | rfl | rfl | rfl | rfl | rfl | rfl | rfl | rfl | rfl <;>
          exact ⟨nofun, nofun, nofun⟩
      · refine ⟨nofun, nofun, ?_⟩
        intro m hm
        have : Key.f (n + 1) = Key.f m := hm
        injection this with this
        omega
    obtain ⟨h1, h2, h3⟩ := this k hk
    cases k with
    | char c => exact (h1 c rfl).elim
    | ctrl c => exact (h2 c rfl).elim
    | f n => exact h3 n rfl
    | _ => trivial
  intro s hs
  rcases h s hs with e | ⟨k, h1, h2, h3⟩
  · exact .inl e
  · exact .inr ⟨k, on k h1, h2, h3⟩

/-- A typed `[` or `O` is not the only danger, but keeping them away from Escape is enough. -/
theorem escape_clear {v : Vt} (hv : v.mode 1 = true) {acts : List UserAct} (hp : ∀ a ∈ acts, a.Possible)
    (hs : ∀ a ∈ acts, Sends v a) (he : EscapeApart acts) : EscapeClear v acts := by
  rintro l r rfl
  have hp' : ∀ a ∈ r, a.Possible := fun x hx => hp x (List.mem_append_right _ (List.mem_cons_of_mem _ hx))
  have hs' : ∀ a ∈ r, Sends v a := fun x hx => hs x (List.mem_append_right _ (List.mem_cons_of_mem _ hx))
  have key : ∀ s : Bytes, tableSpec xtermKeys xtermName s ≠ none → s ≠ [] →
      ¬ s <+: v.sent (.key .escape :: r) := by
    intro s h1 h2 h3
    have e : v.sent (.key .escape :: r) = 0x1b :: stream (r.map actPiece) := by
      rw [stream_acts hv hp' hs']
      simp [Vt.sent, Vt.sends, xtermKeyBytes, cursorKeyByte]
    rw [e] at h3
    refine no_begins_esc (fun b t hb => ?_) s ⟨h1, h2, h3⟩
    have : ¬ (b = 0x5b ∨ b = 0x4f) := by
      intro hbb
      cases r with
      | nil => cases hb
      | cons a' acts =>
        rw [List.map_cons, stream_cons] at hb
        cases hx : (actPiece a').bytes with
        | nil => exact act_bytes_ne (hp' a' List.mem_cons_self) hx
        | cons y t =>
          rw [hx] at hb
          injection hb with hb _
          subst hb
          obtain ⟨c, rfl, hc⟩ := act_first (hp' a' List.mem_cons_self) hx hbb
          obtain ⟨n1, n2⟩ := he l c acts rfl
          rcases hc with h | h
          · exact n1 h
          · exact n2 h
    exact ⟨fun h => this (Or.inl h), fun h => this (Or.inr h)⟩
  refine ⟨key _ (by rw [xterm_mouse]; exact nofun) (by decide), fun k hk hne => ?_⟩
  have tab : ∀ k ∈ tableKeys, ¬ v.sends (.key k) <+: v.sent (.key .escape :: r) := by
    intro k hk
    obtain ⟨h1, h2⟩ := xterm_key k hk
    show ¬ xtermKeyBytes (v.mode 1) k <+: _
    rw [hv]
    exact key _ (by rw [h1]; exact nofun) h2
  have first : ∀ c : Char, c ≠ '\x1b' → ¬ String.utf8EncodeChar c <+: v.sent (.key .escape :: r) := by
    intro c hc h
    cases hx : String.utf8EncodeChar c with
    | nil => exact encodeChar_ne_nil c hx
    | cons x t =>
      have e : v.sent (.key .escape :: r) = 0x1b :: v.sent r := by
        simp [Vt.sent, Vt.sends, xtermKeyBytes, cursorKeyByte]
      rw [hx, e, List.cons_prefix_cons] at h
      obtain ⟨rfl, -⟩ := h
      exact hc (char_ext (firstByte (by decide) hx))
  cases k with
  | escape => exact (hne rfl).elim
  | char c => exact first c (char_plain hk).2
  | ctrl c =>
    have := first _ (ctrl_piece hk).2.2
    rw [(ctrl_piece hk).1] at this
    exact this
  | enter => exact first '\r' (by decide)
  | tab => exact first '\t' (by decide)
  | backspace => exact first '\x7f' (by decide)
  | f n => exact tab _ (fkey_table hk)
  | up => exact tab _ (by decide +kernel)
  | down => exact tab _ (by decide +kernel)
  | left => exact tab _ (by decide +kernel)
  | right => exact tab _ (by decide +kernel)
  | delete => exact tab _ (by decide +kernel)
  | insert => exact tab _ (by decide +kernel)
  | home => exact tab _ (by decide +kernel)
  | «end» => exact tab _ (by decide +kernel)
  | pageUp => exact tab _ (by decide +kernel)
  | pageDown => exact tab _ (by decide +kernel)

/-- What the user does is how the whole input is to be read. -/
theorem parsed_acts {v : Vt} (hv : v.mode 1 = true) : ∀ {acts : List UserAct}, (∀ a ∈ acts, a.Possible) →
    (∀ a ∈ acts, Sends v a) → EscapeClear v acts →
    Parsed (tableSpec xtermKeys xtermName) (acts.map actPiece)
  | [], _, _, _ => trivial
  | a :: acts, hp, hs, he => by
    have hp' : ∀ x ∈ acts, x.Possible := fun x hx => hp x (List.mem_cons_of_mem _ hx)
    have hs' : ∀ x ∈ acts, Sends v x := fun x hx => hs x (List.mem_cons_of_mem _ hx)
    have ha := hp a List.mem_cons_self
    have hst := stream_acts hv hp hs
    refine ⟨?_, parsed_acts hv hp' hs' fun l r e => he (a :: l) r (by rw [e]; rfl)⟩
    rw [← List.map_cons, List.map_cons, stream_cons]
    generalize hr : stream (acts.map actPiece) = r
    have plain : ∀ c : Char, c ≠ '\x1b' →
        (Piece.char c).Leads (tableSpec xtermKeys xtermName) ((Piece.char c).bytes ++ r) :=
      fun c hc k hk => (no_begins hc r k hk).elim
    have key : ∀ k ∈ tableKeys, (Piece.key (xtermKeyBytes true k) k).Leads (tableSpec xtermKeys xtermName)
        ((Piece.key (xtermKeyBytes true k) k).bytes ++ r) := by
      intro k hk
      obtain ⟨h1, h2⟩ := xterm_key k hk
      exact ⟨xterm_longest (by rw [h1]; exact fun h => by cases h) h2 (List.prefix_append _ _), h1⟩
    cases a with
    | key k =>
      cases k with
      | char c => exact plain c (char_plain ha).2
      | ctrl c => exact plain _ (ctrl_piece ha).2.2
      | enter => exact plain _ (by decide)
      | tab => exact plain _ (by decide)
      | backspace => exact plain _ (by decide)
      | escape =>
        intro k hk
        exfalso
        obtain ⟨c1, c2⟩ := he [] acts rfl
        rw [List.map_cons, stream_cons, hr] at hst
        obtain ⟨h1, h2, h3⟩ := hk
        rw [hst] at h3
        rcases xterm_origin k (xterm_known h1) with rfl | ⟨k', q1, q2, q3⟩
        · exact c1 h3
        · refine c2 k' q1 q2 ?_
          show xtermKeyBytes (v.mode 1) k' <+: _
          rw [hv, q3]; exact h3
      | f n => exact key _ (fkey_table ha)
      | up => exact key _ (by decide +kernel)
      | down => exact key _ (by decide +kernel)
      | left => exact key _ (by decide +kernel)
      | right => exact key _ (by decide +kernel)
      | delete => exact key _ (by decide +kernel)
      | insert => exact key _ (by decide +kernel)
      | home => exact key _ (by decide +kernel)
      | «end» => exact key _ (by decide +kernel)
      | pageUp => exact key _ (by decide +kernel)
      | pageDown => exact key _ (by decide +kernel)
    | mouse a p m =>
      obtain ⟨hl, hc, hb⟩ := ha
      refine ⟨xterm_longest (by rw [xterm_mouse]; exact fun h => by cases h) (by decide) ?_, xterm_mouse,
        (decimal_digits _).1, (decimal_digits _).1, (decimal_digits _).1, ?_, ?_, ?_⟩
      · exact (List.prefix_append _ _).trans (List.prefix_append _ _)
      · rw [(decimal_digits _).2]
        have h1 : modsNumber m ≤ 28 := by
          obtain ⟨x, y, z⟩ := m
          cases x <;> cases y <;> cases z <;> decide
        have h2 : a.number ≤ 65 := by
          cases a with
          | press b => cases b <;> first | exact hb.elim | decide
          | release b => cases b <;> first | exact hb.elim | decide
          | move b =>
            cases b with
            | none => decide
            | some b => cases b <;> first | exact hb.elim | decide
          | _ => decide
        omega
      · rw [(decimal_digits _).2]; omega
      · rw [(decimal_digits _).2]; omega

theorem events_acts {acts : List UserAct} (hp : ∀ a ∈ acts, a.Possible) :
    (acts.map actPiece).map Piece.event = acts.map UserAct.event := by
  rw [List.map_map]
  exact List.map_congr_left fun a ha => actPiece_event (hp a ha)

theorem unsplit_unbroken {v : Vt} (hv : v.mode 1 = true) {acts : List UserAct} (hp : ∀ a ∈ acts, a.Possible)
    (hs : ∀ a ∈ acts, Sends v a) {unread : Bytes} (h : Unbroken v acts unread) :
    Unsplit (acts.map actPiece) ((stream (acts.map actPiece)).length - unread.length) := by
  obtain ⟨l, r, rfl, h⟩ := h
  have pl : ∀ a ∈ l, a.Possible := fun a ha => hp a (List.mem_append_left _ ha)
  have pr : ∀ a ∈ r, a.Possible := fun a ha => hp a (List.mem_append_right _ ha)
  have sl : ∀ a ∈ l, Sends v a := fun a ha => hs a (List.mem_append_left _ ha)
  have sr : ∀ a ∈ r, Sends v a := fun a ha => hs a (List.mem_append_right _ ha)
  have e : stream ((l ++ r).map actPiece) = stream (l.map actPiece) ++ stream (r.map actPiece) := by
    simp [stream]
  have zero : ∀ ps : List Piece, Unsplit ps 0 := by
    intro ps
    induction ps with
    | nil => trivial
    | cons p ps ih =>
      rw [Unsplit]
      split
      · exact Or.inl rfl
      · rw [Nat.zero_sub]; exact ih
  rw [e, List.length_append, List.map_append]
  rcases h with rfl | ⟨c, t, a, b, rfl, hc, rfl⟩
  · rw [← stream_acts hv pr sr, Nat.add_sub_cancel]
    exact (unsplit_append _ _ 0).mpr (zero _)
  · rw [← stream_acts hv (fun x hx => pr x (List.mem_cons_of_mem _ hx)) fun x hx => sr x (List.mem_cons_of_mem _ hx),
      List.map_cons, stream_cons]
    have hb : (actPiece (.key (.char c))).bytes = a ++ b := hc
    rw [hb, List.append_assoc, List.length_append (as := a), ← Nat.add_assoc, Nat.add_sub_cancel]
    refine (unsplit_append _ _ _).mpr ?_
    rw [Unsplit, hb]
    split
    · exact Or.inr ⟨c, rfl⟩
    · rename_i hn
      rw [List.length_append] at hn ⊢
      rw [show a.length - (a.length + b.length) = 0 by omega]
      exact zero _

end Mortal
