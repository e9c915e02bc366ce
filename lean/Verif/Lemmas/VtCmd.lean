import Verif.Lemmas.Vt
import Verif.Lemmas.LiveTerm

/-! # Commands in the bytes of xterm -/

namespace Mortal
open Spec

section
variable {u : UEnv} {crlf : Bool} {v : Vt}

/-- Change the attributes in effect. -/
def vpaint (v : Vt) (f : DevAttrs → DevAttrs) : Vt := { v with t := { v.t with attrs := f v.t.attrs } }

theorem byte_esc (h : v.ps = .ground) : v.byte u crlf 0x1b = { v with ps := .esc } := by
  rw [Vt.byte, h]; rfl

theorem feed_sgr (h : v.ps = .ground) (s : String) (b : Bytes) (e : asc s = b ++ [0x6d])
    (hb : ∀ x ∈ b, 0x20 ≤ x.toNat ∧ x.toNat ≤ 0x3f) (h63 : b.head? ≠ some 63) :
    v.feed u crlf (esc s) = vpaint v (sgr (csiParams b)) := by
  rw [feed_esc h s b 0x6d e hb (by decide), dispatch_ansi _ _ _ h63]
  rfl

theorem feed_plain (h : v.ps = .ground) (ps : List Nat) :
    v.feed u crlf (xtermString .exitAttributeMode ps) = vpaint v fun _ => .plain := by
  have e1 : v.feed u crlf (0x1b :: asc "(B") = v := by
    show v.feed u crlf [0x1b, 0x28, 0x42] = v
    rw [vfeed_cons, byte_esc h]
    exact vt_ground h
  show v.feed u crlf (0x1b :: asc "(B" ++ esc "m") = _
  rw [vfeed_append, e1, feed_sgr h "m" [] rfl (by simp) (by simp)]
  rfl

theorem feed_color (h : v.ps = .ground) (b br n : Nat) (hb : b = 3 ∧ br = 9 ∨ b = 4 ∧ br = 10) :
    v.feed u crlf (xtermColor b br n) =
      vpaint v fun a => if b = 3 then { a with fg := some n } else { a with bg := some n } := by
  have key : ∀ body : Bytes, (∀ x ∈ body, 0x20 ≤ x.toNat ∧ x.toNat ≤ 0x3f) → body.head? ≠ some 63 →
      v.feed u crlf (0x1b :: 0x5b :: body ++ asc "m") = vpaint v (sgr (csiParams body)) := by
    intro body h1 h2
    show v.feed u crlf (0x1b :: 0x5b :: body ++ [0x6d]) = _
    rw [feed_csi h body 0x6d h1 (by decide), dispatch_ansi _ _ _ h2]
    rfl
  have head : ∀ (m : Nat) (l : Bytes), (decimal m ++ l).head? ≠ some 63 := by
    intro m l
    obtain ⟨x, r, e, hx⟩ := decimal_head m
    rw [e]
    intro h
    exact hx (Option.some.inj h)
  have two : ∀ m k : Nat, ∀ x ∈ decimal m ++ decimal k, 0x20 ≤ x.toNat ∧ x.toNat ≤ 0x3f := by
    intro m k x hx
    rcases List.mem_append.1 hx with hx | hx
    · exact decimal_csi _ _ hx
    · exact decimal_csi _ _ hx
  unfold xtermColor
  rw [key]
  · unfold vpaint
    rw [sgr_color b br n _ hb]
  · split
    · exact two _ _
    · split
      · exact two _ _
      · intro x hx
        rcases List.mem_append.1 hx with hx | hx
        · rcases List.mem_append.1 hx with hx | hx
          · exact decimal_csi _ _ hx
          · have : ∀ x ∈ asc "8;5;", 0x20 ≤ x.toNat ∧ x.toNat ≤ 0x3f := by decide
            exact this x hx
        · exact decimal_csi _ _ hx
  · split
    · exact head _ _
    · split
      · exact head _ _
      · rw [List.append_assoc]; exact head _ _

theorem feed_attr (h : v.ps = .ground) {c : Cap} (hc : IsAttrCap c) {ps : List Nat}
    (hp : c = .setAForeground ∨ c = .setABackground → ∃ n, ps = [n]) :
    v.feed u crlf (xtermString c ps) = vpaint v fun a => devStep a (.cap c ps) := by
  cases c <;> first | exact absurd hc (by exact id) | skip
  · exact feed_plain h ps
  · exact feed_sgr h "1m" [49] rfl (by decide) (by decide)
  · exact feed_sgr h "3m" [51] rfl (by decide) (by decide)
  · exact feed_sgr h "7m" [55] rfl (by decide) (by decide)
  · exact feed_sgr h "4m" [52] rfl (by decide) (by decide)
  · exact feed_sgr h "23m" [50, 51] rfl (by decide) (by decide)
  · exact feed_sgr h "24m" [50, 52] rfl (by decide) (by decide)
  · obtain ⟨n, rfl⟩ := hp (Or.inl rfl)
    exact feed_color h 3 9 n (Or.inl ⟨rfl, rfl⟩)
  · obtain ⟨n, rfl⟩ := hp (Or.inr rfl)
    exact feed_color h 4 10 n (Or.inr ⟨rfl, rfl⟩)

theorem feed_clearScreen (h : v.ps = .ground) (ps : List Nat) :
    v.feed u crlf (xtermString .clearScreen ps) = (v.goto ⟨0, 0⟩).erase fun _ => True := by
  show v.feed u crlf (esc "H" ++ esc "2J") = _
  rw [vfeed_append, feed_esc h "H" [] 0x48 rfl (by simp) (by decide), dispatch_ansi _ _ _ (by simp)]
  have : v.ansi (csiParams []) (0x48 : UInt8).toNat = v.goto ⟨0, 0⟩ := by
    show v.goto ⟨min 0 _, min 0 _⟩ = _
    rw [Nat.zero_min, Nat.zero_min]
  rw [this, feed_esc (v := v.goto ⟨0, 0⟩) h "2J" [50] 0x4a rfl (by decide) (by decide),
    dispatch_ansi _ _ _ (by decide)]
  rfl

theorem feed_home (h : v.ps = .ground) (ps : List Nat) :
    v.feed u crlf (xtermString .cursorHome ps) = v.goto ⟨0, 0⟩ := by
  show v.feed u crlf (esc "H") = _
  rw [feed_esc h "H" [] 0x48 rfl (by simp) (by decide), dispatch_ansi _ _ _ (by simp)]
  show v.goto ⟨min 0 _, min 0 _⟩ = _
  rw [Nat.zero_min, Nat.zero_min]

theorem feed_clrEol (h : v.ps = .ground) (ps : List Nat) :
    v.feed u crlf (xtermString .clrEol ps) = v.erase (RestOfLine v.pos) := by
  show v.feed u crlf (esc "K") = _
  rw [feed_esc h "K" [] 0x4b rfl (by simp) (by decide), dispatch_ansi _ _ _ (by simp)]
  rfl

theorem feed_clrEos (h : v.ps = .ground) (ps : List Nat) :
    v.feed u crlf (xtermString .clrEos ps) = v.erase (RestOfScreen v.pos) := by
  show v.feed u crlf (esc "J") = _
  rw [feed_esc h "J" [] 0x4a rfl (by simp) (by decide), dispatch_ansi _ _ _ (by simp)]
  rfl

theorem feed_up (h : v.ps = .ground) (ps : List Nat) :
    v.feed u crlf (xtermString .cursorUp ps) = v.ansi [1] 0x41 := by
  show v.feed u crlf (esc "A") = _
  rw [feed_esc h "A" [] 0x41 rfl (by simp) (by decide), dispatch_ansi _ _ _ (by simp)]
  rfl

theorem feed_right (h : v.ps = .ground) (ps : List Nat) :
    v.feed u crlf (xtermString .cursorRight ps) = v.ansi [1] 0x43 := by
  show v.feed u crlf (esc "C") = _
  rw [feed_esc h "C" [] 0x43 rfl (by simp) (by decide), dispatch_ansi _ _ _ (by simp)]
  rfl

theorem feed_left (h : v.ps = .ground) (ps : List Nat) :
    v.feed u crlf (xtermString .cursorLeft ps) = v.ansi [1] 0x44 := by
  show v.feed u crlf (String.utf8EncodeChar (Char.ofNat 8)) = _
  rw [feed_char h _ (by decide)]
  rfl

theorem feed_parm (h : v.ps = .ground) (ps : List Nat) :
    v.feed u crlf (xtermString .parmUp ps) = v.ansi [ps.getD 0 0] 0x41 ∧
    v.feed u crlf (xtermString .parmDown ps) = v.ansi [ps.getD 0 0] 0x42 ∧
    v.feed u crlf (xtermString .parmRight ps) = v.ansi [ps.getD 0 0] 0x43 ∧
    v.feed u crlf (xtermString .parmLeft ps) = v.ansi [ps.getD 0 0] 0x44 :=
  ⟨feed_num h _ 0x41 (by decide), feed_num h _ 0x42 (by decide), feed_num h _ 0x43 (by decide),
    feed_num h _ 0x44 (by decide)⟩

theorem feed_address (h : v.ps = .ground) (ps : List Nat) :
    v.feed u crlf (xtermString .cursorAddress ps) =
      v.goto ⟨min (ps.getD 0 0) (v.t.size.lines - 1), min (ps.getD 1 0) (v.t.size.columns - 1)⟩ := by
  have e : xtermString .cursorAddress ps =
      0x1b :: 0x5b :: (decimal (ps.getD 0 0 + 1) ++ 59 :: decimal (ps.getD 1 0 + 1)) ++ [0x48] := by
    show 0x1b :: 0x5b :: decimal (ps.getD 0 0 + 1) ++ asc ";" ++ decimal (ps.getD 1 0 + 1) ++ asc "H" = _
    have e1 : asc ";" = [59] := rfl
    have e2 : asc "H" = [0x48] := rfl
    rw [e1, e2]
    simp
  rw [e, feed_two h _ _ 0x48 (by decide)]
  rfl

theorem feed_margins (h : v.ps = .ground) (ps : List Nat) :
    v.feed u crlf (xtermString .changeScrollRegion ps) = v.ansi [ps.getD 0 0 + 1, ps.getD 1 0 + 1] 0x72 := by
  have e : xtermString .changeScrollRegion ps =
      0x1b :: 0x5b :: (decimal (ps.getD 0 0 + 1) ++ 59 :: decimal (ps.getD 1 0 + 1)) ++ [0x72] := by
    show 0x1b :: 0x5b :: decimal (ps.getD 0 0 + 1) ++ asc ";" ++ decimal (ps.getD 1 0 + 1) ++ asc "r" = _
    have e1 : asc ";" = [59] := rfl
    have e2 : asc "r" = [0x72] := rfl
    rw [e1, e2]
    simp
  rw [e, feed_two h _ _ 0x72 (by decide)]
  rfl

theorem feed_priv (h : v.ps = .ground) (s : String) (b : Bytes) (on : Bool) (n : Nat)
    (e : asc s = (63 :: b) ++ [if on then 0x68 else 0x6c])
    (hb : ∀ x ∈ 63 :: b, 0x20 ≤ x.toNat ∧ x.toNat ≤ 0x3f) (hn : csiParams b = [n]) :
    v.feed u crlf (esc s) = v.setMode on n := by
  rw [feed_esc h s (63 :: b) _ e hb (by cases on <;> decide)]
  unfold Vt.dispatch
  cases on
  · show (csiParams b).foldl (Vt.setMode false) v = _
    rw [hn]; rfl
  · show (csiParams b).foldl (Vt.setMode true) v = _
    rw [hn]; rfl

theorem feed_normal (h : v.ps = .ground) (ps : List Nat) :
    v.feed u crlf (xtermString .cursorNormal ps) = (v.setMode false 12).setMode true 25 := by
  show v.feed u crlf (esc "?12l" ++ esc "?25h") = _
  rw [vfeed_append, feed_priv h "?12l" [49, 50] false 12 rfl (by decide) rfl,
    feed_priv (by rw [setMode_ground]; exact h) "?25h" [50, 53] true 25 rfl (by decide) rfl]

theorem feed_invisible (h : v.ps = .ground) (ps : List Nat) :
    v.feed u crlf (xtermString .cursorInvisible ps) = v.setMode false 25 :=
  feed_priv h "?25l" [50, 53] false 25 rfl (by decide) rfl

theorem keypad_ground {k : Bool} (h : v.ps = .ground) :
    { v with ps := .ground, keypad := k } = { v with keypad := k } := by
  cases v; cases h; rfl

theorem feed_keypad (h : v.ps = .ground) (ps : List Nat) :
    v.feed u crlf (xtermString .keypadXmit ps) = { v.setMode true 1 with keypad := true } ∧
    v.feed u crlf (xtermString .keypadLocal ps) = { v.setMode false 1 with keypad := false } := by
  have g : ∀ on, (v.setMode on 1).ps = .ground := fun on => by rw [setMode_ground]; exact h
  constructor
  · show v.feed u crlf (esc "?1h" ++ [0x1b, 0x3d]) = _
    rw [vfeed_append, feed_priv h "?1h" [49] true 1 rfl (by decide) rfl]
    rw [vfeed_cons, byte_esc (g true)]
    exact keypad_ground (g true)
  · show v.feed u crlf (esc "?1l" ++ [0x1b, 0x3e]) = _
    rw [vfeed_append, feed_priv h "?1l" [49] false 1 rfl (by decide) rfl]
    rw [vfeed_cons, byte_esc (g false)]
    exact keypad_ground (g false)

theorem feed_enter (h : v.ps = .ground) (ps : List Nat) :
    v.feed u crlf (xtermString .enterCaMode ps) = v.toAlternate := by
  show v.feed u crlf (esc "?1049h" ++ esc "22;0;0t") = _
  have g : (v.setMode true 1049).ps = .ground := by rw [setMode_ground]; exact h
  rw [vfeed_append, feed_priv h "?1049h" [49, 48, 52, 57] true 1049 rfl (by decide) rfl,
    feed_esc g "22;0;0t" [50, 50, 59, 48, 59, 48] 0x74 rfl (by decide) (by decide),
    dispatch_ansi _ _ _ (by decide)]
  rfl

theorem feed_exit (h : v.ps = .ground) (ps : List Nat) :
    v.feed u crlf (xtermString .exitCaMode ps) = v.fromAlternate := by
  show v.feed u crlf (esc "?1049l" ++ esc "23;0;0t") = _
  have g : (v.setMode false 1049).ps = .ground := by rw [setMode_ground]; exact h
  rw [vfeed_append, feed_priv h "?1049l" [49, 48, 52, 57] false 1049 rfl (by decide) rfl,
    feed_esc g "23;0;0t" [50, 51, 59, 48, 59, 48] 0x74 rfl (by decide) (by decide),
    dispatch_ansi _ _ _ (by decide)]
  rfl

/-- The sequences that switch mouse reporting. -/
theorem feed_mouse (h : v.ps = .ground) :
    v.feed u crlf mouseOnText = (v.setMode true 1006).setMode true 1002 ∧
    v.feed u crlf mouseOffText = (v.setMode false 1006).setMode false 1002 ∧
    v.feed u crlf motionOnText = v.setMode true 1003 ∧
    v.feed u crlf motionOffText = v.setMode false 1003 := by
  have g : ∀ on n, (v.setMode on n).ps = .ground := fun on n => by rw [setMode_ground]; exact h
  refine ⟨?_, ?_, ?_, ?_⟩
  · show v.feed u crlf (esc "?1006h" ++ esc "?1002h") = _
    rw [vfeed_append, feed_priv h "?1006h" [49, 48, 48, 54] true 1006 rfl (by decide) rfl,
      feed_priv (g _ _) "?1002h" [49, 48, 48, 50] true 1002 rfl (by decide) rfl]
  · show v.feed u crlf (esc "?1006l" ++ esc "?1002l") = _
    rw [vfeed_append, feed_priv h "?1006l" [49, 48, 48, 54] false 1006 rfl (by decide) rfl,
      feed_priv (g _ _) "?1002l" [49, 48, 48, 50] false 1002 rfl (by decide) rfl]
  · exact feed_priv h "?1003h" [49, 48, 48, 51] true 1003 rfl (by decide) rfl
  · exact feed_priv h "?1003l" [49, 48, 48, 51] false 1003 rfl (by decide) rfl

end
end Mortal
