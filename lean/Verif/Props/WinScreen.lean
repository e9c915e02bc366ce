import Verif.Lemmas.Win
import Verif.Lemmas.ScreenSession
import Verif.Model.WinScreen
import Verif.Spec.WinMode

/-! # C48 on Windows: resize records -/

namespace Mortal
open Spec

theorem sm_bind_ok {σ α β : Type} {m : SM σ α} {f : α → SM σ β} {s s' : σ} {b : β}
    (h : (m >>= f) s = .ok b s') : ∃ a s1, m s = .ok a s1 ∧ f a s1 = .ok b s' := by
  rw [sm_bind] at h
  cases hm : m s with
  | ok a s1 => rw [hm] at h; exact ⟨a, s1, rfl, h⟩
  | err e s1 => rw [hm] at h; cases h
  | stop w => rw [hm] at h; cases h

theorem sm_bind_err {σ α β : Type} {m : SM σ α} {f : α → SM σ β} {s s' : σ} {e : IoErr}
    (h : (m >>= f) s = .err e s') :
    m s = .err e s' ∨ ∃ a s1, m s = .ok a s1 ∧ f a s1 = .err e s' := by
  rw [sm_bind] at h
  cases hm : m s with
  | ok a s1 => rw [hm] at h; exact Or.inr ⟨a, s1, rfl, h⟩
  | err e' s1 => rw [hm] at h; cases h; exact Or.inl rfl
  | stop w => rw [hm] at h; cases h

theorem onT_ok {α : Type} {m : WM α} {s s' : WScr} {a : α} (h : onT m s = .ok a s') :
    m s.w = .ok a s'.w ∧ s'.toSData = s.toSData := by
  unfold onT at h
  cases hm : m s.w with
  | ok a w => rw [hm] at h; cases h; exact ⟨rfl, rfl⟩
  | err e w => rw [hm] at h; cases h
  | stop w => rw [hm] at h; cases h

theorem onT_err {α : Type} {m : WM α} {s s' : WScr} {e : IoErr} (h : onT m s = .err e s') :
    m s.w = .err e s'.w ∧ s'.toSData = s.toSData := by
  unfold onT at h
  cases hm : m s.w with
  | ok a w => rw [hm] at h; cases h
  | err e w => rw [hm] at h; cases h; exact ⟨rfl, rfl⟩
  | stop w => rw [hm] at h; cases h

theorem wsUpdateSize_ok {z : Size} {s s' : WScr} {a : Unit} (h : wsUpdateSize z s = .ok a s') :
    s.toSData.updateSize z = some s'.toSData ∧ s'.w = s.w := by
  unfold wsUpdateSize at h
  rw [sm_bind, sm_get] at h
  dsimp only at h
  cases hd : s.toSData.updateSize z with
  | none => rw [hd, sm_bind, sm_ofPanics_none] at h; cases h
  | some d =>
    rw [hd, sm_bind, sm_ofPanics_some] at h
    cases h; exact ⟨rfl, rfl⟩

theorem wsUpdateSize_err {z : Size} {s s' : WScr} {e : IoErr} (h : wsUpdateSize z s = .err e s') :
    False := by
  unfold wsUpdateSize at h
  rw [sm_bind, sm_get] at h
  dsimp only at h
  cases hd : s.toSData.updateSize z with
  | none => rw [hd, sm_bind, sm_ofPanics_none] at h; cases h
  | some d => rw [hd, sm_bind, sm_ofPanics_some] at h; cases h

theorem updateSize_size {d d' : SData} {z : Size} (h : d.updateSize z = some d') :
    d'.buf.size = z ∧ d'.clear = true ∧ d'.buf.back = List.replicate z.area Cell.invalid := by
  unfold SData.updateSize at h
  simp only [Option.bind_eq_bind, Option.bind_eq_some_iff, Option.pure_def, Option.some.injEq] at h
  obtain ⟨b, hb, rfl⟩ := h
  unfold Buf.resize at hb
  simp only [Option.bind_eq_bind, Option.bind_eq_some_iff, Option.pure_def, Option.some.injEq] at hb
  obtain ⟨b', -, rfl⟩ := hb
  exact ⟨rfl, rfl, rfl⟩

/-- What the last call answered. -/
theorem conCall_last {c : ConCall} {s s' : WinSt} {a : Ans} (h : conCall c s = .ok a s') :
    s'.log.getLast? = some (.call c a) := by
  obtain ⟨evs, -, e, -, -⟩ := conCall_ok h
  rw [e]; simp

theorem winReadRawEvent_ok {t : WTerm} {len : Nat} {timeout : Option Duration} {s s' : WinSt}
    {r : Option Event} {l : List InRec} (h : winReadRawEvent t len timeout s = .ok (r, l) s') :
    (r = none ∧ l = []) ∨ (∃ sig, r = some (.signal sig) ∧ l = []) ∨
    (r = some (.raw l.length) ∧ l.length ≤ len ∧
      s'.log.getLast? = some (.call (.readInput t.inH (toDword len)) (.recs l))) := by
  unfold winReadRawEvent at h
  obtain ⟨b, s1, -, h⟩ := sm_bind_ok h
  cases b with
  | false => cases h; exact Or.inl ⟨rfl, rfl⟩
  | true =>
    simp only [Bool.not_true, Bool.false_eq_true, if_false] at h
    obtain ⟨g, s2, -, h⟩ := sm_bind_ok h
    cases g with
    | some sig => cases h; exact Or.inr (Or.inl ⟨sig, rfl, rfl⟩)
    | none =>
      dsimp only at h
      obtain ⟨a, s3, h3, h⟩ := sm_bind_ok h
      have hl := conCall_last h3
      cases a with
      | recs l' =>
        dsimp only at h
        by_cases hle : l'.length ≤ len
        · rw [if_pos hle] at h; cases h; exact Or.inr (Or.inr ⟨rfl, hle, hl⟩)
        · rw [if_neg hle] at h; cases h
      | fail => cases h
      | ok => cases h
      | timeout => cases h
      | handle _ => cases h
      | mode _ => cases h
      | info _ => cases h
      | wrote _ => cases h
      | chars _ => cases h

/-- **C48 (Windows).** An event read from a screen: a resize event comes from a size record the
console has just delivered and carries its size, which is the screen's size from then on; content,
cursor and attributes are kept, and the
next refresh is told to clear and to take nothing for shown already; any other result leaves the
screen alone, and so does an error. -/
theorem C48_win_read_event (t : WTerm) (timeout : Option Duration) (s s' : WScr) :
    (∀ r, wsReadEvent t timeout s = .ok r s' →
      (∀ z, r = some (.resize z) → s'.buf.size = z ∧ s'.clear = true ∧
        (GridOk s.buf → GoodSize z → ResizedTo s.buf s'.buf z) ∧
        s'.buf.back = List.replicate z.area Cell.invalid ∧
        ∃ c : Coord, s'.w.log.getLast? = some (.call (.readInput t.inH 1) (.recs [.size c])) ∧
          (0 ≤ c.x → 0 ≤ c.y → IsShort c.x → IsShort c.y →
            (z.columns : Int) = c.x ∧ (z.lines : Int) = c.y)) ∧
      ((∀ z, r ≠ some (.resize z)) → s'.toSData = s.toSData)) ∧
    (∀ e, wsReadEvent t timeout s = .err e s' → s'.toSData = s.toSData) := by
  constructor
  · intro r h
    unfold wsReadEvent at h
    obtain ⟨o, s1, h1, h⟩ := sm_bind_ok h
    obtain ⟨h1, hd⟩ := onT_ok h1
    have key : ∀ z, o = some (.resize z) → ∃ c : Coord,
        s1.w.log.getLast? = some (.call (.readInput t.inH 1) (.recs [.size c])) ∧
          (0 ≤ c.x → 0 ≤ c.y → IsShort c.x → IsShort c.y →
            (z.columns : Int) = c.x ∧ (z.lines : Int) = c.y) := by
      rintro z rfl
      unfold winReadEvent at h1
      obtain ⟨⟨r1, l⟩, s2, h2, h1⟩ := sm_bind_ok h1
      rcases winReadRawEvent_ok h2 with ⟨rfl, rfl⟩ | ⟨sig, rfl, rfl⟩ | ⟨rfl, hle, hl⟩
      · cases h1
      · cases h1
      · cases l with
        | nil => cases h1
        | cons e l =>
          have : l = [] := by
            cases l with
            | nil => rfl
            | cons a b => simp only [List.length_cons] at hle; omega
          subst this
          dsimp only at h1
          rw [sm_bind, sm_get] at h1
          dsimp only at h1
          cases hr : recordEvent s2.rd e with
          | none => rw [hr] at h1; cases h1
          | some p =>
            obtain ⟨ev, rd⟩ := p
            rw [hr] at h1
            simp only [sm_bind, sm_ofPanics_some, sm_modify, sm_pure, SRes.ok.injEq,
              Option.some.injEq] at h1
            obtain ⟨rfl, hs⟩ := h1
            rw [← hs]
            have hz : sizeEvent e = some z := by
              unfold recordEvent at hr
              split at hr
              · cases hr
              · split at hr
                · cases hr
                · cases hr
                · split at hr
                  · cases hr; assumption
                  · cases hr
            cases e with
            | size c =>
              refine ⟨c, hl, ?_⟩
              simp only [sizeEvent, Option.some.injEq] at hz
              subst hz
              intro hx hy hx' hy'
              unfold IsShort at hx' hy'
              simp only [shortToUsize]
              omega
            | key _ => cases hz
            | mouse _ => cases hz
            | other => cases hz
    cases o with
    | none => cases h; exact ⟨fun z e => (by cases e), fun _ => hd⟩
    | some ev =>
      cases ev with
      | resize z =>
        dsimp only at h
        obtain ⟨⟨⟩, s2, h2, h⟩ := sm_bind_ok h
        cases h
        obtain ⟨h3, h4⟩ := wsUpdateSize_ok h2
        obtain ⟨k1, k2, k3⟩ := updateSize_size h3
        refine ⟨fun z' e => ?_, fun hn => absurd rfl (hn z)⟩
        cases e
        refine ⟨k1, k2, ?_, k3, ?_⟩
        · rw [← congrArg SData.buf hd]; exact updateSize_resized h3
        · rw [h4]; exact key z rfl
      | key _ => cases h; exact ⟨fun z e => (by cases e), fun _ => hd⟩
      | mouse _ => cases h; exact ⟨fun z e => (by cases e), fun _ => hd⟩
      | raw _ => cases h; exact ⟨fun z e => (by cases e), fun _ => hd⟩
      | signal _ => cases h; exact ⟨fun z e => (by cases e), fun _ => hd⟩
      | noEvent => cases h; exact ⟨fun z e => (by cases e), fun _ => hd⟩
  · intro e h
    unfold wsReadEvent at h
    rcases sm_bind_err h with h | ⟨o, s1, h1, h⟩
    · exact (onT_err h).2
    · cases o with
      | none => cases h
      | some ev =>
        cases ev with
        | resize z =>
          rcases sm_bind_err h with h | ⟨_, _, _, h⟩
          · exact (wsUpdateSize_err h).elim
          · cases h
        | key _ => cases h
        | mouse _ => cases h
        | raw _ => cases h
        | signal _ => cases h
        | noEvent => cases h

/-- **C48 (Windows).** `read_raw` never returns a resize event and leaves the screen alone. -/
theorem C48_win_read_raw (t : WTerm) (len : Nat) (timeout : Option Duration) (s s' : WScr) :
    (∀ r, wsReadRaw t len timeout s = .ok r s' →
      (∀ z, r.1 ≠ some (.resize z)) ∧ s'.toSData = s.toSData) ∧
    (∀ e, wsReadRaw t len timeout s = .err e s' → s'.toSData = s.toSData) := by
  have key : ∀ (r : Option Event × List (BitVec 16)) (w w' : WinSt),
      winReadRaw t len timeout w = .ok r w' → ∀ z, r.1 ≠ some (.resize z) := by
    intro r w w' h z
    unfold winReadRaw at h
    obtain ⟨b, s1, -, h⟩ := sm_bind_ok h
    cases b with
    | false => cases h; exact fun e => by cases e
    | true =>
      simp only [Bool.not_true, Bool.false_eq_true, if_false] at h
      obtain ⟨g, s2, -, h⟩ := sm_bind_ok h
      cases g with
      | some sig => cases h; exact fun e => by cases e
      | none =>
        dsimp only at h
        obtain ⟨a, s3, -, h⟩ := sm_bind_ok h
        cases a with
        | chars l =>
          dsimp only at h
          by_cases hle : l.length ≤ len
          · rw [if_pos hle] at h
            by_cases h0 : l.length = 0
            · rw [if_pos h0] at h; cases h; exact fun e => by cases e
            · rw [if_neg h0] at h; cases h; exact fun e => by cases e
          · rw [if_neg hle] at h; cases h
        | fail => cases h
        | ok => cases h
        | timeout => cases h
        | handle _ => cases h
        | mode _ => cases h
        | info _ => cases h
        | wrote _ => cases h
        | recs _ => cases h
  constructor
  · intro r h
    unfold wsReadRaw at h
    obtain ⟨o, s1, h1, h⟩ := sm_bind_ok h
    obtain ⟨h1, hd⟩ := onT_ok h1
    have hk := key o _ _ h1
    obtain ⟨o1, o2⟩ := o
    cases o1 with
    | none => cases h; exact ⟨hk, hd⟩
    | some ev =>
      cases ev with
      | resize z => exact absurd rfl (hk z)
      | key _ => cases h; exact ⟨hk, hd⟩
      | mouse _ => cases h; exact ⟨hk, hd⟩
      | raw _ => cases h; exact ⟨hk, hd⟩
      | signal _ => cases h; exact ⟨hk, hd⟩
      | noEvent => cases h; exact ⟨hk, hd⟩
  · intro e h
    unfold wsReadRaw at h
    rcases sm_bind_err h with h | ⟨o, s1, h1, h⟩
    · exact (onT_err h).2
    · obtain ⟨o1, o2⟩ := o
      cases o1 with
      | none => cases h
      | some ev =>
        cases ev with
        | resize z =>
          rcases sm_bind_err h with h | ⟨_, _, _, h⟩
          · exact (wsUpdateSize_err h).elim
          · cases h
        | key _ => cases h
        | mouse _ => cases h
        | raw _ => cases h
        | signal _ => cases h
        | noEvent => cases h

/-- The last size record of a batch. -/
theorem findSome_last {l : List InRec} :
    (l.reverse.findSome? sizeEvent = none ∧ ∀ c, InRec.size c ∉ l) ∨
    ∃ a c b, l = a ++ .size c :: b ∧ (∀ c', InRec.size c' ∉ b) ∧
      l.reverse.findSome? sizeEvent = some ⟨shortToUsize c.y, shortToUsize c.x⟩ := by
  induction l with
  | nil => exact Or.inl ⟨rfl, by simp⟩
  | cons e l ih =>
    rcases ih with ⟨h1, h2⟩ | ⟨a, c, b, rfl, h2, h3⟩
    · by_cases he : ∃ c, e = .size c
      · obtain ⟨c, rfl⟩ := he
        refine Or.inr ⟨[], c, l, rfl, h2, ?_⟩
        rw [List.reverse_cons, List.findSome?_append, h1]
        rfl
      · refine Or.inl ⟨?_, ?_⟩
        · rw [List.reverse_cons, List.findSome?_append, h1]
          cases e with
          | size c => exact absurd ⟨c, rfl⟩ he
          | key _ => rfl
          | mouse _ => rfl
          | other => rfl
        · intro c hc
          rcases List.mem_cons.mp hc with e' | e'
          · exact he ⟨c, e'.symm⟩
          · exact h2 c e'
    · refine Or.inr ⟨e :: a, c, b, rfl, h2, ?_⟩
      rw [List.reverse_cons, List.findSome?_append, h3]
      rfl

/-- **C48 (Windows).** `read_raw_event` applies the last size record of the batch the console has
delivered, whatever other records there are, and leaves the screen alone if there is none, or if it
fails. -/
theorem C48_win_read_raw_event (t : WTerm) (len : Nat) (timeout : Option Duration) (s s' : WScr) :
    (∀ r l, wsReadRawEvent t len timeout s = .ok (r, l) s' →
      (∀ a c b, l = a ++ .size c :: b → (∀ c', InRec.size c' ∉ b) →
        s'.clear = true ∧ s'.buf.back = List.replicate s'.buf.size.area Cell.invalid ∧
        (GridOk s.buf → GoodSize s'.buf.size → ResizedTo s.buf s'.buf s'.buf.size) ∧
        (0 ≤ c.x → 0 ≤ c.y → IsShort c.x → IsShort c.y →
          (s'.buf.size.columns : Int) = c.x ∧ (s'.buf.size.lines : Int) = c.y)) ∧
      ((∀ c, InRec.size c ∉ l) → s'.toSData = s.toSData) ∧
      (l ≠ [] → s'.w.log.getLast? = some (.call (.readInput t.inH (toDword len)) (.recs l)))) ∧
    (∀ e, wsReadRawEvent t len timeout s = .err e s' → s'.toSData = s.toSData) := by
  constructor
  · intro r l h
    unfold wsReadRawEvent at h
    obtain ⟨⟨o, l'⟩, s1, h1, h⟩ := sm_bind_ok h
    obtain ⟨h1, hd⟩ := onT_ok h1
    rcases winReadRawEvent_ok h1 with ⟨rfl, rfl⟩ | ⟨sig, rfl, rfl⟩ | ⟨rfl, hle, hl⟩
    · cases h
      exact ⟨fun a c b e => (by simp at e), fun _ => hd, fun hn => absurd rfl hn⟩
    · cases h
      exact ⟨fun a c b e => (by simp at e), fun _ => hd, fun hn => absurd rfl hn⟩
    · dsimp only at h
      rcases findSome_last (l := l') with ⟨k1, k2⟩ | ⟨a, c, b, rfl, k2, k3⟩
      · rw [k1] at h
        cases h
        exact ⟨fun a c b e => absurd (by rw [e]; simp) (k2 c), fun _ => hd, fun _ => hl⟩
      · rw [k3] at h
        obtain ⟨⟨⟩, s2, h2, h⟩ := sm_bind_ok h
        cases h
        obtain ⟨h3, h4⟩ := wsUpdateSize_ok h2
        obtain ⟨g1, g2, g3⟩ := updateSize_size h3
        refine ⟨fun a' c' b' e k2' => ⟨g2, by rw [g1]; exact g3, ?_, ?_⟩,
          fun hn => absurd (by simp) (hn c), fun _ => by rw [h4]; exact hl⟩
        · rw [g1, ← congrArg SData.buf hd]; exact updateSize_resized h3
        have hc : c' = c := by
          rcases List.append_eq_append_iff.mp e with ⟨q, q1, q2⟩ | ⟨q, q1, q2⟩
          · cases q with
            | nil => simp only [List.nil_append, List.cons.injEq, InRec.size.injEq] at q2
                     exact q2.1.symm
            | cons x q =>
              simp only [List.cons_append, List.cons.injEq] at q2
              exact absurd (by rw [q2.2]; simp) (k2 c')
          · cases q with
            | nil => simp only [List.nil_append, List.cons.injEq, InRec.size.injEq] at q2
                     exact q2.1
            | cons x q =>
              simp only [List.cons_append, List.cons.injEq] at q2
              exact absurd (by rw [q2.2]; simp) (k2' c)
        subst hc
        intro hx hy hx' hy'
        unfold IsShort at hx' hy'
        rw [g1]
        simp only [shortToUsize]
        omega
  · intro e h
    unfold wsReadRawEvent at h
    rcases sm_bind_err h with h | ⟨⟨o, l'⟩, s1, h1, h⟩
    · exact (onT_err h).2
    · exfalso
      rcases winReadRawEvent_ok (onT_ok h1).1 with ⟨rfl, rfl⟩ | ⟨sig, rfl, rfl⟩ | ⟨rfl, hle, hl⟩
      · cases h
      · cases h
      · dsimp only at h
        cases hf : l'.reverse.findSome? sizeEvent with
        | none => rw [hf] at h; cases h
        | some z =>
          rw [hf] at h
          rcases sm_bind_err h with h | ⟨_, _, _, h⟩
          · exact wsUpdateSize_err h
          · cases h

/-- The theorems apply: reading three records, two of them about sizes, gives a screen of the last
size, for an answer the console may give. -/
example : ∃ (s s' : WScr) (r : Option Event) (l : List InRec),
    wsReadRawEvent demoTerm 8 none s = .ok (r, l) s' ∧
    l = [.size ⟨9, 9⟩, .other] ++ .size ⟨4, 3⟩ :: [.other] ∧ s.buf.size = ⟨2, 2⟩ ∧
    s'.buf.size = ⟨3, 4⟩ := by
  refine ⟨{ SData.new ⟨2, 2⟩ with
      w := demoSt [⟨[], .ok⟩, ⟨[], .ok⟩, ⟨[], .ok⟩,
        ⟨[], .recs [.size ⟨9, 9⟩, .other, .size ⟨4, 3⟩, .other]⟩] }, ?_⟩
  refine ⟨_, _, _, rfl, rfl, rfl, rfl⟩

end Mortal
