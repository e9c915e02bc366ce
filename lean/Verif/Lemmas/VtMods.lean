import Verif.Spec.VtMods
import Verif.Props.VtInput

/-! # Keys with modifiers, read with the table of an xterm -/

namespace Mortal
open Spec

/-- The keys that take modifiers, other than characters. -/
def heldKeys : List Key :=
  [.up, .down, .left, .right, .home, .end, .insert, .delete, .pageUp, .pageDown, .tab] ++
    (List.range 12).map fun n => .f (n + 1)

/-- All modifiers. -/
def allMods : List ModifierState :=
  [false, true].flatMap fun a => [false, true].flatMap fun b => [false, true].map fun c => ⟨a, b, c⟩

theorem mem_allMods (m : ModifierState) : m ∈ allMods := by
  obtain ⟨a, b, c⟩ := m
  cases a <;> cases b <;> cases c <;> decide

theorem held_cases {k : Key} {m : ModifierState} (h : (KeyAct.held k m).Possible) :
    k ∈ heldKeys ∨ ∃ c, k = .char c ∧ ¬ Control c ∧ c ≠ '[' ∧ c ≠ 'O' := by
  cases k with
  | char c => exact .inr ⟨c, rfl, h.2.1, h.2.2.1, h.2.2.2⟩
  | ctrl c => exact h.elim
  | f n =>
    refine .inl ?_
    have key : ∀ n, n ≤ 12 → 1 ≤ n → Key.f n ∈ heldKeys := by decide +kernel
    exact key n h.2.1 h.1
  | escape => exact h.elim
  | enter => exact h.elim
  | backspace => exact h.elim
  | _ => exact .inl (by decide +kernel)

/-- The characters are typed characters, and what is sent begins with no string of the table, nor does a
string of the table begin with it. -/
theorem held_facts : ∀ k ∈ heldKeys, ∀ m ∈ allMods, (∀ c ∈ heldText k m, ¬ Control c) ∧
    ∀ s ∈ xtermSeqs, s.isPrefixOf (0x1b :: encode (heldText k m)) = false ∧
      (0x1b :: encode (heldText k m)).isPrefixOf s = false := by
  decide +kernel

theorem held_plain {k : Key} {m : ModifierState} (h : (KeyAct.held k m).Possible) :
    ∀ c ∈ heldText k m, ¬ Control c := by
  rcases held_cases h with hk | ⟨c, rfl, hc, -⟩
  · exact (held_facts k hk m (mem_allMods m)).1
  · intro d hd
    have : d ∈ [c] := hd
    rw [List.mem_singleton.mp this]; exact hc

theorem sent_typed (v : Vt) (acts : List KeyAct) : v.sent (acts.flatMap KeyAct.typed) = acts.flatMap v.sendsHeld := by
  induction acts with
  | nil => rfl
  | cons x acts ih =>
    rw [List.flatMap_cons, List.flatMap_cons, ← ih]
    have e : ∀ l r : List UserAct, v.sent (l ++ r) = v.sent l ++ v.sent r := by intro l r; simp [Vt.sent]
    rw [e]
    congr 1
    cases x with
    | act a => simp [Vt.sent, KeyAct.typed, Vt.sendsHeld]
    | held k m =>
      show v.sent (.key .escape :: (heldText k m).map fun c => .key (.char c)) = 0x1b :: encode (heldText k m)
      generalize heldText k m = t
      have h1 : v.sent [.key .escape] = [0x1b] := by
        simp [Vt.sent, Vt.sends, xtermKeyBytes, cursorKeyByte]
      have h2 : v.sent (t.map fun c => .key (.char c)) = encode t := by
        simp only [Vt.sent, encode, List.flatMap_map]
        congr 1
      rw [← List.singleton_append, e, h1, h2]; rfl

theorem possible_typed {acts : List KeyAct} (hp : ∀ x ∈ acts, x.Possible) :
    ∀ a ∈ acts.flatMap KeyAct.typed, a.Possible := by
  intro a ha
  obtain ⟨x, hx, ha⟩ := List.mem_flatMap.mp ha
  have := hp x hx
  cases x with
  | act b => rw [List.mem_singleton.mp ha]; exact this
  | held k m =>
    rcases List.mem_cons.mp ha with rfl | ha
    · trivial
    · obtain ⟨c, hc, rfl⟩ := List.mem_map.mp ha
      exact held_plain this c hc

theorem filter_typed (cfg : PrepareConfig) (acts : List KeyAct) :
    (acts.flatMap KeyAct.typed).filter (AskedFor cfg) = (acts.filter (AskedK cfg)).flatMap KeyAct.typed := by
  induction acts with
  | nil => rfl
  | cons x acts ih =>
    rw [List.flatMap_cons, List.filter_append, ih]
    cases x with
    | act a =>
      by_cases h : AskedFor cfg a = true
      · rw [List.filter_cons_of_pos (p := AskedK cfg) (show AskedK cfg (.act a) = true from h), List.flatMap_cons]
        congr 1
        simp [KeyAct.typed, h]
      · rw [List.filter_cons_of_neg (p := AskedK cfg) (show ¬ AskedK cfg (.act a) = true from h)]
        simp [KeyAct.typed, h]
    | held k m =>
      rw [List.filter_cons_of_pos (p := AskedK cfg) (show AskedK cfg (.held k m) = true from rfl), List.flatMap_cons]
      congr 1
      refine List.filter_eq_self.mpr fun a ha => ?_
      rcases List.mem_cons.mp ha with rfl | ha
      · rfl
      · obtain ⟨c, -, rfl⟩ := List.mem_map.mp ha; rfl

theorem told_typed (acts : List KeyAct) :
    (acts.flatMap KeyAct.typed).map UserAct.event = acts.flatMap KeyAct.told := by
  induction acts with
  | nil => rfl
  | cons x acts ih =>
    rw [List.flatMap_cons, List.flatMap_cons, List.map_append, ih]
    congr 1
    cases x with
    | act a => rfl
    | held k m =>
      show Event.key .escape :: List.map _ (List.map _ _) = _
      rw [List.map_map]; rfl

theorem split_skip {α : Type} {e : α} : ∀ {t l R r : List α}, e ∉ t → t ++ R = l ++ e :: r →
    ∃ l', R = l' ++ e :: r
  | [], l, _, _, _, h => ⟨l, h⟩
  | x :: t, [], R, r, hn, h => by
    injection h with h _
    exact (hn (h ▸ List.mem_cons_self)).elim
  | x :: t, y :: l, R, r, hn, h => by
    injection h with _ h
    exact split_skip (fun hm => hn (List.mem_cons_of_mem _ hm)) h

/-- What is sent begins with no string of the table. -/
def SentClear (b : Bytes) : Prop := ∀ s ∈ xtermSeqs, ¬ s <+: b

theorem clear_of {v : Vt} (hv : v.mode 1 = true) {b : Bytes} (h : SentClear (0x1b :: b)) :
    ¬ [0x1b, 0x5b, 0x3c] <+: 0x1b :: b ∧
    ∀ k, OnKeyboard k → k ≠ .escape → ¬ v.sends (.key k) <+: 0x1b :: b := by
  refine ⟨h _ List.mem_cons_self, fun k hk hne => ?_⟩
  have tab : ∀ k ∈ tableKeys, ¬ v.sends (.key k) <+: 0x1b :: b := by
    intro k hk
    obtain ⟨h1, h2⟩ := xterm_key k hk
    show ¬ xtermKeyBytes (v.mode 1) k <+: _
    rw [hv]
    exact h _ (xterm_known (by rw [h1]; exact nofun))
  have first : ∀ c : Char, c ≠ '\x1b' → ¬ String.utf8EncodeChar c <+: 0x1b :: b := by
    intro c hc h
    cases hx : String.utf8EncodeChar c with
    | nil => exact encodeChar_ne_nil c hx
    | cons x t =>
      rw [hx, List.cons_prefix_cons] at h
      obtain ⟨rfl, -⟩ := h
      exact hc (char_ext (firstByte (by decide) hx))
  cases k with
  | escape => exact (hne rfl).elim
  | char c => exact first c (char_plain hk).2
  | ctrl c =>
    have := first _ (ctrl_piece hk).2.2
    rw [(ctrl_piece hk).1] at this
    exact this
  | enter => exact first '\r' (by decide)
  | tab => exact first '\t' (by decide)
  | backspace => exact first '\x7f' (by decide)
  | f n => exact tab _ (fkey_table hk)
  | up => exact tab _ (by decide +kernel)
  | down => exact tab _ (by decide +kernel)
  | left => exact tab _ (by decide +kernel)
  | right => exact tab _ (by decide +kernel)
  | delete => exact tab _ (by decide +kernel)
  | insert => exact tab _ (by decide +kernel)
  | home => exact tab _ (by decide +kernel)
  | «end» => exact tab _ (by decide +kernel)
  | pageUp => exact tab _ (by decide +kernel)
  | pageDown => exact tab _ (by decide +kernel)

/-- Escape not followed by `[` or `O`. -/
theorem clear_next {b : Bytes} (h : ∀ x l, b = x :: l → x ≠ 0x5b ∧ x ≠ 0x4f) : SentClear (0x1b :: b) := by
  intro s hs hp
  obtain ⟨x, l, rfl, hb⟩ := xterm_esc s hs
  rw [List.cons_prefix_cons] at hp
  obtain ⟨t, ht⟩ := hp.2
  obtain ⟨n1, n2⟩ := h x (l ++ t) ht.symm
  rcases hb with e | e
  · exact n1 e
  · exact n2 e

theorem char_next {c : Char} (h1 : c ≠ '[') (h2 : c ≠ 'O') {x : UInt8} {l : Bytes}
    (h : String.utf8EncodeChar c = x :: l) : x ≠ 0x5b ∧ x ≠ 0x4f := by
  constructor
  · rintro rfl; exact h1 (char_ext (firstByte (by decide) h))
  · rintro rfl; exact h2 (char_ext (firstByte (by decide) h))

/-- The Escape of a key with modifiers. -/
theorem clear_held {k : Key} {m : ModifierState} (h : (KeyAct.held k m).Possible) (b : Bytes) :
    SentClear (0x1b :: (encode (heldText k m) ++ b)) := by
  rcases held_cases h with hk | ⟨c, rfl, -, h1, h2⟩
  · intro s hs hp
    obtain ⟨f1, f2⟩ := (held_facts k hk m (mem_allMods m)).2 s hs
    rw [← List.cons_append] at hp
    rcases List.prefix_or_prefix_of_prefix hp (List.prefix_append (0x1b :: encode (heldText k m)) b) with e | e
    · rw [List.isPrefixOf_iff_prefix.mpr e] at f1; cases f1
    · rw [List.isPrefixOf_iff_prefix.mpr e] at f2; cases f2
  · refine clear_next fun x l e => ?_
    have et : encode (heldText (.char c) m) = String.utf8EncodeChar c := by
      simp [heldText, encode]
    rw [et] at e
    cases hx : String.utf8EncodeChar c with
    | nil => exact (encodeChar_ne_nil c hx).elim
    | cons y t =>
      rw [hx] at e
      injection e with e _
      rw [← e]
      exact char_next h1 h2 hx

/-- Every Escape that is sent is clear. -/
theorem escape_typed {v : Vt} (hv : v.mode 1 = true) : ∀ {acts : List KeyAct}, (∀ x ∈ acts, x.Possible) →
    (∀ a ∈ acts.flatMap KeyAct.typed, Sends v a) → EscapeApartK acts → EscapeClear v (acts.flatMap KeyAct.typed)
  | [], _, _, _ => by
    intro l r h
    cases l <;> cases h
  | x :: acts, hp, hs, he => by
    have hp' : ∀ y ∈ acts, y.Possible := fun y hy => hp y (List.mem_cons_of_mem _ hy)
    have hs' : ∀ a ∈ acts.flatMap KeyAct.typed, Sends v a := fun a ha =>
      hs a (by rw [List.flatMap_cons]; exact List.mem_append_right _ ha)
    have ih := escape_typed hv hp' hs' fun l c r e => he (x :: l) c r (by rw [e]; rfl)
    have e0 : ∀ r, v.sent (.key .escape :: r) = 0x1b :: v.sent r := by
      intro r; simp [Vt.sent, Vt.sends, xtermKeyBytes, cursorKeyByte]
    intro l r h
    rw [List.flatMap_cons] at h
    rw [e0]
    cases x with
    | act a =>
      cases l with
      | nil =>
        injection h with h1 h2
        subst h1
        refine clear_of hv (clear_next fun y t ht => ?_)
        have h2 : acts.flatMap KeyAct.typed = r := h2
        rw [← h2, sent_typed] at ht
        cases acts with
        | nil => cases ht
        | cons x' acts =>
          rw [List.flatMap_cons] at ht
          cases x' with
          | held k m =>
            injection ht with ht _
            subst ht
            decide
          | act a' =>
            have hpa : a'.Possible := hp' _ List.mem_cons_self
            have hb := actPiece_bytes hv hpa (hs' a' (by rw [List.flatMap_cons]; exact List.mem_append_left _ List.mem_cons_self))
            have ht : v.sends a' ++ _ = y :: t := ht
            rw [← hb] at ht
            cases hx : (actPiece a').bytes with
            | nil => exact (act_bytes_ne hpa hx).elim
            | cons z w =>
              rw [hx] at ht
              injection ht with ht _
              subst ht
              have : ¬ (z = 0x5b ∨ z = 0x4f) := by
                intro hz
                obtain ⟨c, rfl, hc⟩ := act_first hpa hx hz
                obtain ⟨n1, n2⟩ := he [] c acts rfl
                rcases hc with h | h
                · exact n1 h
                · exact n2 h
              exact ⟨fun h => this (Or.inl h), fun h => this (Or.inr h)⟩
      | cons y l =>
        injection h with _ h
        have := ih l r h
        rw [e0] at this
        exact this
    | held k m =>
      cases l with
      | nil =>
        injection h with _ h
        refine clear_of hv ?_
        have e : v.sent r = encode (heldText k m) ++ v.sent (acts.flatMap KeyAct.typed) := by
          have := sent_typed v (.held k m :: acts)
          rw [List.flatMap_cons, List.flatMap_cons, ← sent_typed] at this
          have e2 : KeyAct.typed (.held k m) ++ acts.flatMap KeyAct.typed = .key .escape :: r := by
            show UserAct.key .escape :: _ ++ _ = _
            exact congrArg (UserAct.key .escape :: ·) h
          rw [e2, e0] at this
          injection this
        rw [e]
        exact clear_held (hp _ List.mem_cons_self) _
      | cons y l =>
        injection h with _ h
        obtain ⟨l', h'⟩ := split_skip (fun hm => by
          obtain ⟨c, -, hc⟩ := List.mem_map.mp hm
          injection hc with hc
          cases hc) h
        have := ih l' r h'
        rw [e0] at this
        exact this

end Mortal
