import Verif.Lemmas.VtSane
import Verif.Lemmas.LiveRun

/-! # What a screen sends on an xterm -/

namespace Mortal
open Spec

/-- Text without the escape character. -/
def CleanText (s : List Char) : Prop := ∀ ch ∈ s, ch.toNat ≠ 27

/-- What a screen sends between its opening and its end. -/
def TameOut : Out → Prop
  | .cap c ps => ScreenCap c ∧ SaneParams c ps
  | .text b => MouseText (.text b) ∨ ∃ s, b = encode s ∧ CleanText s
  | .junk _ => False

theorem silent_tame {o : Out} (h : Silent o) : TameOut o := by
  rcases h with h | ⟨c, ps, rfl, hc⟩
  · rcases h with rfl | rfl | rfl | rfl
    · exact Or.inl (Or.inl rfl)
    · exact Or.inl (Or.inr (Or.inl rfl))
    · exact Or.inl (Or.inr (Or.inr (Or.inl rfl)))
    · exact Or.inl (Or.inr (Or.inr (Or.inr rfl)))
  · rcases hc with rfl | rfl | rfl | rfl <;> exact ⟨trivial, trivial⟩

/-! ## The cells -/

/-- No cell holds the escape character. -/
def CleanBuf (b : Buf) : Prop := ∀ c ∈ b.buffer, CleanText c.text

theorem clean_default : CleanText Cell.default.text := by
  unfold CleanText; decide

theorem clean_new (z : Size) : CleanBuf (Buf.new z) := by
  intro c hc
  rw [show c = Cell.default from List.eq_of_mem_replicate hc]
  exact clean_default

theorem clean_change {u : UEnv} (hT : TableOk u) {text : List Char}
    (fg bg : Option Color) (st : Style) (c c' : Cell) (h : CellChange u fg bg st text c c')
    (hg : CleanText c.text) : CleanText c'.text := by
  have ctl : ∀ ch : Char, ch.toNat = 27 → u.w ch = 0 ∧ u.combining ch = false :=
    fun ch h => hT.ctl ch (Or.inl (by omega))
  induction h with
  | same => exact hg
  | drawn ch h =>
    intro x hx
    cases List.mem_singleton.1 hx
    rcases h with ⟨-, h2⟩ | rfl
    · exact fun e => h2.width (ctl ch e).1
    · decide
  | blank =>
    intro x hx
    cases List.mem_singleton.1 hx
    decide
  | mark c m _ hmem hcomb ih =>
    intro x hx
    rcases List.mem_append.mp hx with hx | hx
    · exact ih x hx
    · cases List.mem_singleton.1 hx
      intro e
      rw [(ctl m e).2] at hcomb
      cases hcomb

theorem swapRow_mem : ∀ (n : Nat) (new old r : List Cell), Buf.swapRow n new old = some r →
    ∀ c ∈ r, c ∈ new ∨ c ∈ old := by
  intro n
  induction n with
  | zero => intro new old r h c hc; cases h; exact Or.inl hc
  | succ n ih =>
    intro new old r h c hc
    match new, old, h with
    | [], _, h => cases h
    | _ :: _, [], h => cases h
    | x :: new, y :: old, h =>
      obtain ⟨r1, h1, rfl⟩ := Option.map_eq_some_iff.1 h
      rcases List.mem_cons.1 hc with rfl | hc
      · exact Or.inr List.mem_cons_self
      · rcases ih new old r1 h1 c hc with h | h
        · exact Or.inl (List.mem_cons_of_mem _ h)
        · exact Or.inr (List.mem_cons_of_mem _ h)

theorem swapRows_mem (n : Nat) : ∀ (news olds rs : List (List Cell)), Buf.swapRows n news olds = some rs →
    ∀ c, c ∈ rs.flatten → c ∈ news.flatten ∨ c ∈ olds.flatten := by
  intro news
  induction news with
  | nil => intro olds rs h c hc; cases olds <;> (cases h; exact Or.inl hc)
  | cons new news ih =>
    intro olds rs h c hc
    cases olds with
    | nil => cases h; exact Or.inl hc
    | cons old olds =>
      simp only [Buf.swapRows, Option.bind_eq_bind, Option.bind_eq_some_iff] at h
      obtain ⟨r, h1, rs1, h2, h3⟩ := h
      cases h3
      rw [List.flatten_cons] at hc ⊢
      rw [List.flatten_cons]
      rcases List.mem_append.1 hc with hc | hc
      · rcases swapRow_mem n new old r h1 c hc with h | h
        · exact Or.inl (List.mem_append_left _ h)
        · exact Or.inr (List.mem_append_left _ h)
      · rcases ih olds rs1 h2 c hc with h | h
        · exact Or.inl (List.mem_append_right _ h)
        · exact Or.inr (List.mem_append_right _ h)

theorem chunks_mem {α : Type} (n : Nat) : ∀ (fuel : Nat) (l : List α) (c : α),
    c ∈ (Buf.chunks n fuel l).flatten → c ∈ l := by
  intro fuel
  induction fuel with
  | zero => intro l c h; cases l <;> cases h
  | succ fuel ih =>
    intro l c h
    cases l with
    | nil => cases h
    | cons x l =>
      rw [Buf.chunks, List.flatten_cons] at h
      rcases List.mem_append.1 h with h | h
      · exact List.mem_of_mem_take h
      · exact List.mem_of_mem_drop (ih _ c h)

/-- The cells of a resized buffer are old ones, or blank. -/
theorem resize_mem {b b' : Buf} {z : Size} (h : b.resize z = some b') :
    ∀ c ∈ b'.buffer, c ∈ b.buffer ∨ c = Cell.default := by
  unfold Buf.resize at h
  simp only [Option.bind_eq_bind, Option.bind_eq_some_iff] at h
  obtain ⟨l, h1, h2⟩ := h
  cases h2
  intro c hc
  change c ∈ l at hc
  unfold Buf.resizeBuffer at h1
  split at h1
  · cases h1; exact Or.inl hc
  · dsimp only at h1
    split at h1
    · cases h1; exact Or.inr (List.eq_of_mem_replicate hc)
    · split at h1
      · cases h1
      · obtain ⟨rs, h2, rfl⟩ := Option.map_eq_some_iff.1 h1
        rcases swapRows_mem _ _ _ _ h2 c hc with h | h
        · exact Or.inr (List.eq_of_mem_replicate (chunks_mem _ _ _ c h))
        · exact Or.inl (chunks_mem _ _ _ c h)

theorem clean_op {u : UEnv} (hT : TableOk u) {op : BufOp} {b b' : Buf} (h : CleanBuf b)
    (e : op.run u b = some b') : CleanBuf b' := by
  by_cases hop : ∀ z, op ≠ .resize z
  · exact effect_cells (op_effect hT.space hop e) (Q := fun c => CleanText c.text) clean_default
      (fun fg bg st c c' => clean_change hT fg bg st c c') h
  · obtain ⟨z, rfl⟩ : ∃ z, op = .resize z := Classical.not_forall_not.1 hop
    intro c hc
    rcases resize_mem e c hc with hc | rfl
    · exact h c hc
    · exact clean_default

theorem clean_size {d d' : SData} {z : Size} (h : CleanBuf d.buf) (e : d.updateSize z = some d') :
    CleanBuf d'.buf := by
  unfold SData.updateSize at e
  simp only [Option.bind_eq_bind, Option.bind_eq_some_iff] at e
  obtain ⟨b1, e1, e2⟩ := e
  cases e2
  intro c hc
  rcases resize_mem e1 c hc with hc | rfl
  · exact h c hc
  · exact clean_default

/-! ## The writer -/

/-- What does not concern the modes of the device. -/
def NoMode (o : Out) : Prop := ∀ d, modeStep d o = d

/-- Everything handed over since is what a screen sends, and the device has received what it should. -/
def TameLog (base w : WS) : Prop :=
  (∃ new, w.log = base.log ++ new ∧ ∀ o ∈ new, TameOut o) ∧ (Delivered xtermDB base → Delivered xtermDB w)

/-- Moreover none of it concerns the modes of the device. -/
def TameSince (base w : WS) : Prop := TameLog base w ∧ devModes w.log = devModes base.log

theorem TameSince.refl (w : WS) : TameSince w w := ⟨⟨⟨[], by simp, by simp⟩, id⟩, rfl⟩

theorem TameSince.log {base w w' : WS} (h : TameSince base w) (e : w'.log = w.log)
    (hd : Delivered xtermDB w → Delivered xtermDB w') : TameSince base w' := by
  obtain ⟨⟨⟨n, a, b⟩, c⟩, m⟩ := h
  exact ⟨⟨⟨n, e.trans a, b⟩, fun k => hd (c k)⟩, by rw [e, m]⟩

theorem TameSince.push {base w w' : WS} (h : TameSince base w) {o : Out} (ho : TameOut o) (hm : NoMode o)
    (e : w'.log = w.log ++ [o]) (hd : Delivered xtermDB w → Delivered xtermDB w') : TameSince base w' := by
  obtain ⟨⟨⟨n, a, b⟩, c⟩, m⟩ := h
  refine ⟨⟨⟨n ++ [o], by rw [e, a, List.append_assoc], fun x hx => ?_⟩, fun k => hd (c k)⟩, ?_⟩
  · rcases List.mem_append.1 hx with hx | hx
    · exact b x hx
    · rw [List.mem_singleton.1 hx]; exact ho
  · rw [e, devModes_snoc, hm, m]

theorem tame_expand {base : WS} {c : Cap} {ps : List Nat} (hc : TameOut (.cap c ps)) (hm : NoMode (.cap c ps))
    {f : List Nat → Bytes × Bool} (hf : xtermDB.db c = some f) (w : WS) (h : TameSince base w) :
    Always (expand xtermDB c ps f w) (TameSince base) := by
  have hd := (delivered_inv xtermDB).expand c ps f w hf
  cases hf
  exact Always.ok (h.push hc hm rfl fun k => hd k _ rfl)

theorem noMode_attr {c : Cap} (h : IsAttrCap c) (ps : List Nat) : NoMode (.cap c ps) := by
  intro d
  cases c <;> first | rfl | exact h.elim

theorem tame_attrs (base : WS) : SInvA xtermDB (TameSince base) where
  attrs _ _ _ _ h := h.log rfl id
  expand c ps f s hc hs hf h := tame_expand (by
    refine ⟨?_, hs.2⟩
    cases c <;> first | exact trivial | exact hc) (noMode_attr hc ps) hf s h

theorem tame_flush {base : WS} (w : WS) (h : TameSince base w) : Always (flush w) (TameSince base) := by
  intro w' e
  have hd := fun k => (delivered_inv xtermDB).flush w k w' e
  cases hf : flush w with
  | ok x => rw [hf] at e; cases e; exact h.log (flush_same.1 _ hf).1 hd
  | err y x => rw [hf] at e; cases e; exact h.log (flush_same.2 _ _ hf).1 hd
  | stop r => rw [hf] at e; cases e

theorem clean_not_mouse {s : List Char} (h : CleanText s) (hm : MouseText (.text (encode s))) : False := by
  have key : ∀ b : Bytes, b = encode (b.map fun x => Char.ofNat x.toNat) →
      (∃ ch ∈ b.map (fun x => Char.ofNat x.toNat), ch.toNat = 27) → encode s = b → False := by
    rintro b h1 ⟨ch, h2, h3⟩ e
    rw [h1] at e
    rw [← encode_inj e] at h2
    exact h ch h2 h3
  rcases hm with e | e | e | e <;> injection e with e
  · exact key _ (by decide +kernel) (by decide +kernel) e
  · exact key _ (by decide +kernel) (by decide +kernel) e
  · exact key _ (by decide +kernel) (by decide +kernel) e
  · exact key _ (by decide +kernel) (by decide +kernel) e

theorem noMode_text {s : List Char} (h : CleanText s) : NoMode (.text (encode s)) := by
  have hne : ∀ b, MouseText (.text b) → encode s ≠ b := fun b hb e => clean_not_mouse h (e ▸ hb)
  intro d
  unfold modeStep
  dsimp only
  rw [if_neg (hne _ (Or.inl rfl)), if_neg (hne _ (Or.inr (Or.inl rfl))),
    if_neg (hne _ (Or.inr (Or.inr (Or.inl rfl)))), if_neg (hne _ (Or.inr (Or.inr (Or.inr rfl))))]

theorem tame_write {base : WS} {b : Bytes} (hb : TameOut (.text b)) (hm : NoMode (.text b)) (w : WS) (h : TameSince base w) :
    Always (writeBytes b w) (TameSince base) := by
  intro w' e
  have hd := fun k => (delivered_inv xtermDB).write b w k w' e
  cases hf : writeBytes b w with
  | ok x => rw [hf] at e; cases e; exact h.push hb hm (writeBytes_same.1 _ hf).1 hd
  | err y x => rw [hf] at e; cases e; exact h.log (writeBytes_same.2 _ _ hf).1 hd
  | stop r => rw [hf] at e; cases e

theorem tame_move {base : WS} (p : Cursor) (w : WS) (h : TameSince base w) :
    Always (moveCursor xtermDB p w) (TameSince base) := by
  unfold moveCursor
  split
  · rename_i addr home ha
    split
    · exact tame_expand (c := .cursorHome) ⟨trivial, trivial⟩ (fun _ => rfl) ha w h
    · exact tame_expand (c := .cursorAddress) ⟨trivial, trivial⟩ (fun _ => rfl) rfl w h
  · rename_i a ha _
    exact tame_expand (c := .cursorAddress) ⟨trivial, trivial⟩ (fun _ => rfl) ha w h
  · exact Always.err h

/-! ## A screen -/

section
variable {u : UEnv} {base : WS}

theorem tame_moveS (p : Cursor) (s : Scr) (h : TameSince base s.w) :
    AlwaysS (s.moveCursor xtermDB p) (TameSince base) := by
  unfold Scr.moveCursor
  split
  · exact (AlwaysS.onW (tame_move p s.w h)).andThen fun s hs => AlwaysS.ok hs
  · exact AlwaysS.ok h

theorem tame_drawCell (p : Cursor) {c : Cell} (hc : CleanText c.text) (s : Scr)
    (h : TameSince base s.w) : AlwaysS (s.drawCell xtermDB p c) (TameSince base) := by
  unfold Scr.drawCell
  refine ((AlwaysS.andThen (tame_moveS p s h) fun s hs =>
    AlwaysS.onW (sana_setAttrs (tame_attrs base) _ _ _ s.w hs)).andThen fun s hs =>
    AlwaysS.onW (tame_write (Or.inr ⟨_, rfl, hc⟩) (noMode_text hc) s.w hs)).andThen fun s hs => ?_
  split
  · exact AlwaysS.stop
  · exact AlwaysS.ok hs

theorem nextCell_mem : ∀ (n idx : Nat) (b b' : Buf) (r : Nat × Nat) (o : Option (Cursor × Cell)),
    b.nextCell u n idx = some (b', r, o) → b'.buffer = b.buffer ∧ ∀ p c, o = some (p, c) → c ∈ b.buffer := by
  intro n
  induction n using Nat.strongRecOn with
  | ind n ih =>
    intro idx b b' r o h
    cases n with
    | zero => cases h; exact ⟨rfl, fun p c e => by cases e⟩
    | succ n =>
      rw [nextCell_succ] at h
      simp only [Option.bind_eq_bind, Option.bind_eq_some_iff] at h
      obtain ⟨cell, h1, first, -, old, -, h⟩ := h
      split at h
      · split at h
        · cases h
        · cases h
          exact ⟨rfl, fun p c e => by cases e; exact List.mem_of_getElem? h1⟩
      · generalize (if u.w first = 2 then min n 1 else 0) = k at h
        split at h
        · exact ih n (by omega) _ b b' r o h
        · cases n with
          | zero => cases h; exact ⟨rfl, fun p c e => by cases e⟩
          | succ n => exact ih n (by omega) _ b b' r o h

theorem onW_buf {f : WS → Outcome WS} {s s' : Scr} (h : (s.onW f).state = some s') : s'.buf = s.buf := by
  unfold Scr.onW at h
  cases e : f s.w with
  | ok w => rw [e] at h; cases h; rfl
  | err x w => rw [e] at h; cases h; rfl
  | stop x => rw [e] at h; cases h

theorem tame_drawLoop : ∀ (f : Nat) (r : Nat × Nat) (s : Scr), CleanBuf s.buf → TameSince base s.w →
    AlwaysS (Scr.drawLoop u xtermDB f r s) (TameSince base)
  | 0, _, _, _, _ => AlwaysS.stop
  | f + 1, (idx, n), s, hc, h => by
    unfold Scr.drawLoop
    split
    · exact AlwaysS.stop
    · exact AlwaysS.ok h
    · rename_i b rest pos cell hn
      obtain ⟨hb, hm⟩ := nextCell_mem _ _ _ _ _ _ hn
      have k := tame_drawCell (base := base) pos (hc cell (hm _ _ rfl)) { s with buf := b } h
      cases e : ({ s with buf := b } : Scr).drawCell xtermDB pos cell with
      | ok s1 =>
        rw [e] at k
        rw [andThen_ok]
        refine tame_drawLoop f _ s1 ?_ (k s1 rfl)
        intro c hcm
        rw [(drawCell_buf e).1] at hcm
        refine hc c ?_
        rw [← hb]; exact hcm
      | err x s1 => rw [e] at k; exact k
      | stop x => exact AlwaysS.stop

theorem tame_refresh {s : Scr} (hc : CleanBuf s.buf) (h : TameSince base s.w) :
    AlwaysS (s.refresh u xtermDB) (TameSince base) := by
  unfold Scr.refresh
  have hcl : ∀ s1, (s.clearIfNeeded xtermDB >>? Scr.onW (clearAttributes xtermDB)) = .ok s1 →
      s1.buf = s.buf := by
    intro s1 e
    obtain ⟨s0, e0, e1⟩ := andThen_inv e
    rw [onW_buf (by rw [e1]; rfl)]
    unfold Scr.clearIfNeeded at e0
    split at e0
    · obtain ⟨s2, e2, e3⟩ := andThen_inv e0
      cases e3
      have := onW_buf (s' := s2) (by rw [e2]; rfl)
      exact this
    · cases e0; rfl
  have k : AlwaysS (s.clearIfNeeded xtermDB >>? Scr.onW (clearAttributes xtermDB)) (TameSince base) := by
    refine AlwaysS.andThen ?_ fun s hs => AlwaysS.onW (sana_clear (tame_attrs base) s.w hs)
    unfold Scr.clearIfNeeded
    split
    · refine AlwaysS.andThen (AlwaysS.onW ?_) fun s hs => AlwaysS.ok hs
      exact tame_expand (c := .clearScreen) ⟨trivial, trivial⟩ (fun _ => rfl) rfl s.w h
    · exact AlwaysS.ok h
  cases e : s.clearIfNeeded xtermDB >>? Scr.onW (clearAttributes xtermDB) with
  | err x s1 => rw [e] at k; exact k
  | stop x => exact AlwaysS.stop
  | ok s1 =>
    rw [e] at k
    rw [andThen_ok]
    have hb := hcl s1 e
    refine (((tame_drawLoop _ _ s1 (by rw [hb]; exact hc) (k s1 rfl)).andThen fun s hs =>
      AlwaysS.onW (sana_clear (tame_attrs base) s.w hs)).andThen fun s hs => ?_).andThen fun s hs =>
      AlwaysS.onW (tame_flush s.w hs)
    unfold Scr.placeCursor
    split
    · split
      · exact AlwaysS.stop
      · exact tame_moveS _ s hs
    · exact tame_moveS _ s hs

end

/-- What is known of a screen after a call of a guard. -/
def TameScr (base : WS) (s : Scr) : Prop := TameSince base s.w ∧ CleanBuf s.buf

theorem tame_refresh_both {u : UEnv} {base : WS} {s s' : Scr} (h : TameScr base s)
    (e : (s.refresh u xtermDB).state = some s') : TameScr base s' := by
  refine ⟨tame_refresh h.2 h.1 s' e, ?_⟩
  have hk := keeps_refresh u xtermDB s s' e
  rw [hk]
  exact h.2

theorem tame_end {base : WS} {s s' : Scr} (h : TameScr base s)
    (e : (s.onW (WOp.sessionEnd.run xtermDB)).state = some s') : TameScr base s' := by
  refine ⟨?_, by rw [onW_buf e]; exact h.2⟩
  refine AlwaysS.onW (P := TameSince base) ?_ s' e
  intro w' e
  have hd := (quiet_sessionEnd xtermDB s.w w' e).dlv
  have hl := sessionEnd_log xtermDB s.w
  cases hf : WOp.sessionEnd.run xtermDB s.w with
  | ok x => rw [hf] at e hl; cases e; exact h.1.log hl hd
  | err y x => rw [hf] at e hl; cases e; exact h.1.log hl hd
  | stop r => rw [hf] at e; cases e

theorem tame_guardDrop {u : UEnv} {base : WS} {s s' : Scr} (h : TameScr base s)
    (e : (guardDrop u xtermDB s).state = some s') : TameScr base s' := by
  unfold guardDrop at e
  cases hr : s.refresh u xtermDB with
  | ok s1 => rw [hr] at e; exact tame_end (tame_refresh_both h (by rw [hr]; rfl)) e
  | err x s1 => rw [hr] at e; exact tame_end (tame_refresh_both h (by rw [hr]; rfl)) e
  | stop x => rw [hr] at e; cases e

theorem tame_gop {u : UEnv} (hT : TableOk u) {base : WS} {op : GOp} {s s' : Scr} (h : TameScr base s)
    (e : (op.run u xtermDB s).state = some s') : TameScr base s' := by
  cases op with
  | draw o =>
    change (match o.run u s.buf with
      | none => Outcome.stop .panic
      | some b => .ok { s with buf := b }).state = _ at e
    cases hr : o.run u s.buf with
    | none => rw [hr] at e; cases e
    | some b => rw [hr] at e; cases e; exact ⟨h.1, clean_op hT h.2 hr⟩
  | refresh => exact tame_refresh_both h e
  | setCursorMode m =>
    refine ⟨?_, by rw [onW_buf e]; exact h.2⟩
    refine AlwaysS.onW (P := TameSince base) ?_ s' e
    unfold Mortal.setCursorMode
    cases m
    · exact tame_expand (c := .cursorNormal) ⟨trivial, trivial⟩ (fun _ => rfl) rfl s.w h.1
    · exact tame_expand (c := .cursorInvisible) ⟨trivial, trivial⟩ (fun _ => rfl) rfl s.w h.1
    · exact tame_expand (c := .cursorNormal) ⟨trivial, trivial⟩ (fun _ => rfl) rfl s.w h.1

theorem tame_session {u : UEnv} (hT : TableOk u) {base : WS} : ∀ {ops : List GOp} {s s' : Scr},
    TameScr base s → (guardSession u xtermDB ops s).state = some s' → TameScr base s'
  | [], s, s', h, e => tame_guardDrop h e
  | op :: ops, s, s', h, e => by
    rw [guardSession] at e
    cases hr : op.run u xtermDB s with
    | ok s1 => rw [hr] at e; exact tame_session hT (tame_gop hT h (by rw [hr]; rfl)) e
    | err x s1 => rw [hr] at e; exact tame_session hT (tame_gop hT h (by rw [hr]; rfl)) e
    | stop x => rw [hr] at e; cases e

theorem tame_refreshCall {u : UEnv} {base : WS} {s s' : Scr} (h : TameScr base s)
    (e : (refreshCall u xtermDB s).state = some s') : TameScr base s' := by
  unfold refreshCall at e
  cases hr : s.refresh u xtermDB with
  | ok s1 => rw [hr] at e; exact tame_guardDrop (tame_refresh_both h (by rw [hr]; rfl)) e
  | err x s1 =>
    rw [hr] at e
    dsimp only at e
    cases hd : guardDrop u xtermDB s1 with
    | ok s2 =>
      rw [hd, andThen_ok] at e
      cases e
      exact tame_guardDrop (tame_refresh_both h (by rw [hr]; rfl)) (by rw [hd]; rfl)
    | err y s2 =>
      rw [hd] at e
      cases e
      exact tame_guardDrop (tame_refresh_both h (by rw [hr]; rfl)) (by rw [hd]; rfl)
    | stop y => rw [hd] at e; cases e
  | stop x => rw [hr] at e; cases e

/-! ## Calls on a screen -/

theorem good_xterm : GoodDB xtermDB := fun _ _ h _ => by cases h; rfl

theorem muteUS_tame {s s' : US} (h : MuteUS xtermDB s s') : TameLog s.w s'.w := by
  obtain ⟨n, l, q⟩ := h.log
  exact ⟨⟨n, l, fun o ho => silent_tame (q o ho)⟩, h.dlv⟩

/-- What a call on a screen hands over. -/
theorem tame_scr {u : UEnv} (hT : TableOk u) {env : REnv} (hx : env.w = xtermDB) {op : ScrOp} {d d' : SData}
    {s s' : US} {r : URet} (hc : CleanBuf d.buf) (e : op.run u env d s = some (r, d', s')) :
    TameLog s.w s'.w ∧ CleanBuf d'.buf := by
  have hg : GoodDB env.w := by rw [hx]; exact good_xterm
  have h0 : TameScr s.w { d with w := s.w } := ⟨TameSince.refl _, hc⟩
  have wr : ∀ o : Outcome Scr, (∀ s1, o.state = some s1 → TameScr s.w s1) →
      wret s o = some (r, d', s') → TameLog s.w s'.w ∧ CleanBuf d'.buf := by
    intro o ho e
    cases o with
    | ok s1 => cases e; exact ⟨(ho s1 rfl).1.1, (ho s1 rfl).2⟩
    | err x s1 => cases e; exact ⟨(ho s1 rfl).1.1, (ho s1 rfl).2⟩
    | stop x => cases e
  have qt : ∀ {α : Type} {m : M α} {f : α → URet}, Keeps (MuteUS env.w) m →
      (ret f (m s)).map (fun (r, s) => (r, d, s)) = some (r, d', s') →
      TameLog s.w s'.w ∧ CleanBuf d'.buf := by
    intro α m f hm e
    have hm := hm s
    cases hr : m s with
    | ok a s1 => rw [hr] at e hm; cases e; rw [hx] at hm; exact ⟨muteUS_tame hm, hc⟩
    | err a s1 => rw [hr] at e hm; cases e; rw [hx] at hm; exact ⟨muteUS_tame hm, hc⟩
    | stop a => rw [hr] at e; cases e
  cases op with
  | draw o =>
    simp only [ScrOp.run, Option.map_eq_some_iff] at e
    obtain ⟨b2, e1, e2⟩ := e
    cases e2
    exact ⟨(TameSince.refl _).1, clean_op hT hc e1⟩
  | refresh =>
    change wret s (refreshCall u env.w { d with w := s.w }) = _ at e
    rw [hx] at e
    exact wr _ (fun s1 h1 => tame_refreshCall h0 h1) e
  | guard gs =>
    change wret s (guardSession u env.w gs { d with w := s.w }) = _ at e
    rw [hx] at e
    exact wr _ (fun s1 h1 => tame_session hT h0 h1) e
  | setCursorMode m => exact qt (quietK_cursorMode hg m) e
  | waitEvent tm => exact qt (keeps_waitEvent env tm) e
  | readEvent tm =>
    have hm := quietK_readEvent (env := env) hg tm s
    change rret _ d (screenReadEvent env tm d s) = _ at e
    unfold screenReadEvent at e
    rw [M.bind_apply] at e
    cases hr : Mortal.readEvent env tm s with
    | err a s1 =>
      rw [hr] at e hm; cases e; rw [hx] at hm; exact ⟨muteUS_tame hm, hc⟩
    | stop a => rw [hr] at e; cases e
    | ok a s1 =>
      rw [hr] at e hm
      rw [hx] at hm
      cases a with
      | none => cases e; exact ⟨muteUS_tame hm, hc⟩
      | some ev =>
        cases ev with
        | resize z =>
          dsimp only at e
          cases hd : d.updateSize z with
          | none => rw [hd] at e; cases e
          | some d2 => rw [hd] at e; cases e; exact ⟨muteUS_tame hm, clean_size hc hd⟩
        | _ => cases e; exact ⟨muteUS_tame hm, hc⟩
  | readRaw n tm =>
    have hm := quietK_readRaw (env := env) hg n tm s
    change rret _ d (screenReadRaw env n tm d s) = _ at e
    unfold screenReadRaw at e
    rw [M.bind_apply] at e
    cases hr : Mortal.readRaw env n tm s with
    | err a s1 =>
      rw [hr] at e hm; cases e; rw [hx] at hm; exact ⟨muteUS_tame hm, hc⟩
    | stop a => rw [hr] at e; cases e
    | ok a s1 =>
      rw [hr] at e hm
      rw [hx] at hm
      cases a with
      | nothing => cases e; exact ⟨muteUS_tame hm, hc⟩
      | raw bs => cases e; exact ⟨muteUS_tame hm, hc⟩
      | event ev =>
        cases ev with
        | resize z =>
          dsimp only at e
          cases hd : d.updateSize z with
          | none => rw [hd] at e; cases e
          | some d2 => rw [hd] at e; cases e; exact ⟨muteUS_tame hm, clean_size hc hd⟩
        | _ => cases e; exact ⟨muteUS_tame hm, hc⟩

end Mortal
