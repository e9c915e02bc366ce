import Verif.Lemmas.WinUser
import Verif.Props.WinPure
import Verif.Props.WinMode

/-! # The events of the records for what the user does -/

namespace Mortal
open Spec

/-- What an event tells. -/
def tellOf : Event → List Event
  | .noEvent | .signal _ => []
  | e => [e]

theorem vkKey_none {n : Nat} (h : ∀ key, (n, key) ∉ namedKeys) : vkKey n = none := by
  cases e : vkKey n
  · rfl
  · exact absurd ((vkKey_iff _ _).1 e) (h _)

theorem ofChar_plain {c : Char} (h : ¬ Control c) : Key.ofChar c = .char c := by
  have h5 : ¬ Control c := h
  unfold Control at h5
  have hk := C07_key_of_char c
  generalize Key.ofChar c = key at hk
  cases hk with
  | esc => exact absurd h5 (by decide)
  | del => exact absurd h5 (by decide)
  | cr => exact absurd h5 (by decide)
  | lf => exact absurd h5 (by decide)
  | tab => exact absurd h5 (by decide)
  | ctrl _ h => exact absurd (Or.inl (by omega)) h5
  | char => rfl

theorem key_down_event {k : Key} {r : KeyRec} (hp : (ConAct.user (.key k)).Possible) (hr : KeyGoesDown k r) :
    keyPressEvent (.key r) = some k := by
  obtain ⟨hd, h⟩ := hr
  obtain ⟨down, vk, uchar, keys⟩ := r
  dsimp only at hd
  subst hd
  have bv : ∀ n : Nat, uchar.toNat = n → uchar = BitVec.ofNat 16 n := by
    intro n h
    apply BitVec.eq_of_toNat_eq
    rw [BitVec.toNat_ofNat, ← h, Nat.mod_eq_of_lt uchar.isLt]
  have named : (vk.toNat, k) ∈ namedKeys → keyPressEvent (.key ⟨true, vk, uchar, keys⟩) = some k :=
    fun h => C49_named ⟨true, vk, uchar, keys⟩ k h rfl
  cases k with
  | char c =>
    obtain ⟨h1, h2, h3⟩ := h
    obtain ⟨p1, p2⟩ := hp
    dsimp only at h1 h2 h3
    rw [bv _ h2, keyPress_bmp h1 h3 p2 (fun e => p1 (by unfold Control; omega)), ofChar_plain p1]
  | ctrl c =>
    obtain ⟨h1, h2, h3, h4, h5⟩ := h
    obtain ⟨p1, p2⟩ := hp
    dsimp only at h1 h2 h3 h4 h5
    have q1 : 97 ≤ c.toNat := p1
    have q2 : c.toNat ≤ 122 := p2
    have q3 : (Char.ofNat uchar.toNat).toNat = uchar.toNat := by
      have : uchar.toNat ≤ 26 := by omega
      generalize uchar.toNat = m at this
      interval_cases m <;> decide
    have e := keyPress_ctrl (vk := vk) (keys := keys) h1 ⟨h4, h5⟩ h3 (c := Char.ofNat uchar.toNat) (by omega)
      (by omega)
    rw [q3] at e
    rw [bv _ rfl, e, unctrlLower_ctrl _ (by omega), q3]
    congr 2
    obtain ⟨n, hn⟩ : ∃ n, c.toNat = n := ⟨_, rfl⟩
    have hc := char_eq_ofNat c n hn
    obtain ⟨m, hm⟩ : ∃ m, uchar.toNat = m := ⟨_, rfl⟩
    rw [hm] at h2 ⊢
    obtain rfl : n = m + 96 := by omega
    subst hc
    clear e hn bv named
    have : 1 ≤ m ∧ m ≤ 26 := by omega
    obtain ⟨m1, m2⟩ := this
    clear q1 q2 q3 h2 p1 p2 hm
    interval_cases m <;> decide
  | backspace => exact named h
  | enter => exact named h
  | escape => exact named h
  | tab => exact named h
  | up => exact named h
  | down => exact named h
  | left => exact named h
  | right => exact named h
  | delete => exact named h
  | insert => exact named h
  | home => exact named h
  | «end» => exact named h
  | pageUp => exact named h
  | pageDown => exact named h
  | f n => exact named h

theorem idle_event {rd : WReader} {r : InRec} (h : IdleRec r) : recordEvent rd r = some (.noEvent, rd) := by
  cases r with
  | mouse m => exact h.elim
  | size z => exact h.elim
  | other => rfl
  | key k =>
    have : keyPressEvent (.key k) = none := by
      rcases h with h | ⟨h1, h2⟩
      · exact C49_up _ (fun k' e => by cases e; exact h)
      · simp only [keyPressEvent, vkKey_none h1, h2]
        split
        · rfl
        · split <;> simp_all
    unfold recordEvent
    rw [this]
    rfl

theorem mouse_event {rd : WReader} {held held' : BitVec 32} {a : MouseAct} {p : Cursor} {m : ModifierState}
    {r : MouseRec} (hh : rd.prev = held) (hp : p.line < 2 ^ 15 ∧ p.column < 2 ^ 15)
    (hr : MouseDoes held a p m r held') :
    recordEvent rd (.mouse r) = some (if a = .move none ∧ rd.track = false then .noEvent
      else (UserAct.mouse a p m).event, { rd with prev := held' }) := by
  obtain ⟨h1, h2, h3, h4, h5⟩ := hr
  obtain ⟨i, r', hm, hi⟩ := mouse_meaning rd r
  have hpos : coordToCursor r.pos = p := by
    rw [h1]
    obtain ⟨l, k⟩ := p
    dsimp only at hp
    simp only [atCoord, coordToCursor, shortToUsize, Cursor.mk.injEq]
    omega
  have hmods : (⟨hasAlt r.keys, hasCtrl r.keys, hasShift r.keys⟩ : ModifierState) = m := by
    rw [hasAlt_eq, hasCtrl_eq, hasShift_eq, ← h2, ← h3, ← h4]
  have he : ∀ x, i = some x → recordEvent rd (.mouse r) = some (.mouse ⟨p, x, m⟩, r') := by
    rintro x rfl
    unfold recordEvent
    simp only [keyPressEvent, winMouseEvent, hm, Option.map_some, hpos, hmods]
  have he0 : i = none → recordEvent rd (.mouse r) = some (.noEvent, r') := by
    rintro rfl
    unfold recordEvent
    simp only [keyPressEvent, winMouseEvent, hm, Option.map_some, Option.map_none, sizeEvent]
  have lowest : ∀ {k j : Nat}, k < 16 → (∀ i, r.buttons.getLsbD i ≠ held.getLsbD i → i = k) →
      LowestChange rd.prev r.buttons j → j = k := by
    intro k j hk hu hl
    refine hu j fun e => hl.2.1 ?_
    rw [hh, e]
  cases a with
  | press b =>
    obtain ⟨hf, rfl, k, hk, rfl, hk0, hk1⟩ := h5
    have hne : rd.prev ≠ r.buttons := fun e => by
      have h := hk1 k
      rw [← e, hh, hk0, if_pos rfl] at h
      cases h
    cases hi with
    | wheel up hw _ => rw [hf] at hw; cases hw
    | quiet hw g0 g1 _ =>
      exact absurd (BitVec.eq_of_getLsbD_eq fun i _ => (g0 i).trans (g1 i).symm) hne
    | motion hw hs _ => exact absurd hs hne
    | change j hw hl =>
      obtain rfl : j = k := lowest hk (fun i hi => by
        by_cases e : i = k
        · exact e
        · rw [hk1 i, if_neg e] at hi; exact absurd rfl hi) hl
      rw [he _ rfl]
      have : r.buttons.getLsbD j = true := by rw [hk1 j, if_pos rfl]
      simp only [changeOf, this, if_true, UserAct.event, reduceCtorEq, false_and, if_false]
  | release b =>
    obtain ⟨hf, rfl, k, hk, rfl, hk0, hk1⟩ := h5
    have hne : rd.prev ≠ r.buttons := fun e => by
      have h := hk1 k
      rw [← e, hh, hk0, if_pos rfl] at h
      cases h
    cases hi with
    | wheel up hw _ => rw [hf] at hw; cases hw
    | quiet hw g0 g1 _ =>
      exact absurd (BitVec.eq_of_getLsbD_eq fun i _ => (g0 i).trans (g1 i).symm) hne
    | motion hw hs _ => exact absurd hs hne
    | change j hw hl =>
      obtain rfl : j = k := lowest hk (fun i hi => by
        by_cases e : i = k
        · exact e
        · rw [hk1 i, if_neg e] at hi; exact absurd rfl hi) hl
      rw [he _ rfl]
      have : r.buttons.getLsbD j = false := by rw [hk1 j, if_pos rfl]
      simp only [changeOf, this, UserAct.event, reduceCtorEq, false_and, if_false, Bool.false_eq_true]
  | wheelUp =>
    obtain ⟨hf, rfl, hb1, hb2⟩ := h5
    cases hi with
    | wheel up hw hu =>
      have hup : up = true := hu.2 ⟨hb1, hb2⟩
      subst hup
      rw [he _ rfl, ← hh]
      simp only [UserAct.event, reduceCtorEq, false_and, if_false, if_true]
    | quiet hw _ _ _ => rw [hf] at hw; cases hw
    | motion hw _ _ => rw [hf] at hw; cases hw
    | change j hw _ => rw [hf] at hw; cases hw
  | wheelDown =>
    obtain ⟨hf, rfl, hb1⟩ := h5
    cases hi with
    | wheel up hw hu =>
      have hup : up = false := by
        cases up with
        | false => rfl
        | true => rw [(hu.1 rfl).1] at hb1; cases hb1
      subst hup
      rw [he _ rfl, ← hh]
      simp only [UserAct.event, reduceCtorEq, false_and, if_false, Bool.false_eq_true]
    | quiet hw _ _ _ => rw [hf] at hw; cases hw
    | motion hw _ _ => rw [hf] at hw; cases hw
    | change j hw _ => rw [hf] at hw; cases hw
  | move b =>
    have same : r.flags.getLsbD 2 = false ∧ r.buttons = held ∧ held' = held := by
      cases b with
      | none => obtain ⟨x1, x2, x3, x4⟩ := h5; exact ⟨x1, x2.trans x3.symm, x4.trans x3.symm⟩
      | some b => exact ⟨h5.1, h5.2.1, h5.2.2.1⟩
    obtain ⟨hf, hb, rfl⟩ := same
    cases hi with
    | wheel up hw _ => rw [hf] at hw; cases hw
    | change j hw hl => exact absurd (by rw [hh, hb]) hl.2.1
    | motion hw hs ht =>
      rw [he _ rfl, hb]
      have : ¬ (MouseAct.move b = .move none ∧ rd.track = false) := by
        rintro ⟨e, ht'⟩
        cases e
        rcases ht with ht | ⟨i, ht⟩
        · rw [ht'] at ht; cases ht
        · rw [h5.2.1] at ht; simp at ht
      rw [if_neg this]
      rfl
    | quiet hw g0 g1 ht =>
      rw [he0 rfl, hb]
      cases b with
      | none => rw [if_pos ⟨rfl, ht⟩]
      | some b =>
        obtain ⟨-, -, -, k, -, -, hk⟩ := h5
        rw [← hb, g1 k] at hk
        cases hk

/-- The mode and the reader are as `prepare` leaves them. -/
structure AsPrepared (cfg : PrepareConfig) (mode : BitVec 32) (rd : WReader) : Prop where
  system : mode.getLsbD 0 = !cfg.blockSignals
  sizes : mode.getLsbD 3 = true
  mouse : mode.getLsbD 4 = cfg.enableMouse
  edit : mode.getLsbD 6 = false
  track : cfg.enableMouse = true → rd.track = cfg.alwaysTrackMotion

theorem AsPrepared.on {cfg : PrepareConfig} {mode : BitVec 32} {rd : WReader} (h : AsPrepared cfg mode rd) :
    MouseOn mode = cfg.enableMouse := by
  unfold MouseOn
  rw [h.mouse, h.edit]
  simp

/-- The first record, read. -/
theorem queued_head {cfg : PrepareConfig} {mode : BitVec 32} {rd : WReader} (hm : AsPrepared cfg mode rd)
    {held held' : BitVec 32} {acts : List ConAct} {rs : List InRec} (hq : Queued mode held acts rs held') :
    (∀ a ∈ acts, a.Possible) → rd.prev = held → ∀ r rs' e rd', rs = r :: rs' →
    recordEvent rd r = some (e, rd') →
    ∃ done rest, acts = done ++ rest ∧ Queued mode rd'.prev rest rs' held' ∧ rd'.track = rd.track ∧
      tellOf e = (done.filter (ConAsked cfg)).map ConAct.event := by
  induction hq with
  | nil h => intro _ _ r rs' e rd' h; cases h
  | idle r hr q ih =>
    rintro hp hh r' rs' e rd' h he
    cases h
    rw [idle_event hr] at he
    cases he
    exact ⟨[], _, rfl, by rw [hh]; exact q, rfl, rfl⟩
  | key k r hs hv hr q ih =>
    rintro hp hh r' rs' e rd' h he
    cases h
    have hk := key_down_event (hp _ (by simp)) hr
    unfold recordEvent at he
    rw [hk] at he
    cases he
    refine ⟨[.user (.key k)], _, rfl, by rw [hh]; exact q, rfl, ?_⟩
    have : ConAsked cfg (.user (.key k)) = true := by
      unfold SystemKey at hs
      rw [hm.system] at hs
      unfold ConAsked
      cases hb : cfg.blockSignals
      · rw [hb] at hs
        simpa using hs
      · simp
    simp only [List.filter_cons, this, if_true, List.filter_nil, List.map_cons, List.map_nil]
    rfl
  | system k hs q ih =>
    rintro hp hh r' rs' e rd' h he
    obtain ⟨done, rest, rfl, g1, g2, g3⟩ := ih (fun a ha => hp a (List.mem_cons_of_mem _ ha)) hh _ _ _ _ h he
    refine ⟨.user (.key k) :: done, rest, rfl, g1, g2, ?_⟩
    have : ConAsked cfg (.user (.key k)) = false := by
      unfold SystemKey at hs
      rw [hm.system] at hs
      unfold ConAsked
      rw [Bool.and_eq_true] at hs
      obtain ⟨hs1, hs2⟩ := hs
      have : k = .ctrl 'c' := by simpa using hs2
      subst this
      have : cfg.blockSignals = false := by simpa using hs1
      rw [this]
      rfl
    rw [List.filter_cons, this]
    exact g3
  | mouse a p m r ho hr q ih =>
    rintro hp hh r' rs' e rd' h he
    cases h
    have hpos : p.line < 2 ^ 15 ∧ p.column < 2 ^ 15 := hp (.user (.mouse a p m)) (by simp)
    rw [mouse_event hh hpos hr] at he
    cases he
    refine ⟨[.user (.mouse a p m)], _, rfl, q, rfl, ?_⟩
    rw [hm.on] at ho
    have ht := hm.track ho
    by_cases hc : a = .move none ∧ rd.track = false
    · rw [if_pos hc]
      have : ConAsked cfg (.user (.mouse a p m)) = false := by
        obtain ⟨rfl, h2⟩ := hc
        rw [ht] at h2
        simp only [ConAsked, AskedFor, h2, Bool.and_false]
      rw [List.filter_cons, this]
      rfl
    · rw [if_neg hc]
      have : ConAsked cfg (.user (.mouse a p m)) = true := by
        cases a with
        | move b =>
          cases b with
          | none =>
            have h2 : cfg.alwaysTrackMotion = true := by
              rw [← ht]
              cases hx : rd.track
              · exact absurd ⟨rfl, hx⟩ hc
              · rfl
            simp only [ConAsked, AskedFor, h2, ho, Bool.and_true]
          | some b => exact ho
        | press b => exact ho
        | release b => exact ho
        | wheelUp => exact ho
        | wheelDown => exact ho
      simp only [List.filter_cons, this, if_true, List.filter_nil, List.map_cons, List.map_nil]
      rfl
  | unseen a p m ho q ih =>
    rintro hp hh r' rs' e rd' h he
    obtain ⟨done, rest, rfl, g1, g2, g3⟩ := ih (fun a ha => hp a (List.mem_cons_of_mem _ ha)) hh _ _ _ _ h he
    refine ⟨.user (.mouse a p m) :: done, rest, rfl, g1, g2, ?_⟩
    have : ConAsked cfg (.user (.mouse a p m)) = false := by
      rw [hm.on] at ho
      cases a with
      | move b => cases b <;> simp only [ConAsked, AskedFor, ho, Bool.false_and]
      | _ => exact ho
    rw [List.filter_cons, this]
    exact g3
  | size z ho q ih =>
    rintro hp hh r' rs' e rd' h he
    cases h
    have hz : z.lines < 2 ^ 15 ∧ z.columns < 2 ^ 15 := hp (.resize z) (by simp)
    have : recordEvent rd (.size (sizeCoord z)) = some (.resize z, rd) := by
      unfold recordEvent
      simp only [keyPressEvent, winMouseEvent, sizeEvent, sizeCoord, shortToUsize]
      obtain ⟨l, k⟩ := z
      dsimp only at hz
      congr 3
      simp only [Size.mk.injEq]
      omega
    rw [this] at he
    cases he
    exact ⟨[.resize z], _, rfl, by rw [hh]; exact q, rfl, rfl⟩
  | unsized z ho q ih => rw [hm.sizes] at ho; cases ho

/-- When there is no record left, everything that was asked for was told. -/
theorem queued_nil {cfg : PrepareConfig} {mode : BitVec 32} {rd : WReader} (hm : AsPrepared cfg mode rd)
    {held held' : BitVec 32} {acts : List ConAct} (hq : Queued mode held acts [] held') :
    acts.filter (ConAsked cfg) = [] := by
  generalize hr : ([] : List InRec) = rs at hq
  induction hq with
  | nil h => rfl
  | idle r hr' q ih => cases hr
  | key k r hs hv hr' q ih => cases hr
  | system k hs q ih =>
    have : ConAsked cfg (.user (.key k)) = false := by
      unfold SystemKey at hs
      rw [hm.system] at hs
      unfold ConAsked
      rw [Bool.and_eq_true] at hs
      obtain ⟨hs1, hs2⟩ := hs
      have : k = .ctrl 'c' := by simpa using hs2
      subst this
      have : cfg.blockSignals = false := by simpa using hs1
      rw [this]
      rfl
    rw [List.filter_cons, this]
    exact ih hr
  | mouse a p m r ho hr' q ih => cases hr
  | unseen a p m ho q ih =>
    have : ConAsked cfg (.user (.mouse a p m)) = false := by
      rw [hm.on] at ho
      cases a with
      | move b => cases b <;> simp only [ConAsked, AskedFor, ho, Bool.false_and]
      | _ => exact ho
    rw [List.filter_cons, this]
    exact ih hr
  | size z ho q ih => cases hr
  | unsized z ho q ih => rw [hm.sizes] at ho; cases ho

theorem toldEvents_cons (op : SigOp) (res : Option (Option Event × List InRec))
    (n : List (SigOp × Option (Option Event × List InRec))) :
    toldEvents ((op, res) :: n) =
      (match res with | some (some e, _) => tellOf e | _ => []) ++ toldEvents n := by
  rcases res with _ | ⟨_ | e, l⟩
  · rfl
  · rfl
  · cases e <;> rfl

/-- Ordinary calls, with the records that wait in the queue. -/
theorem ordinary_told {u : UEnv} {t : WTerm} {cfg : PrepareConfig} {mode held' : BitVec 32}
    (ops : List SigOp) : ∀ {s s' : WinSt} {c c' : Con} {n : List (SigOp × Option (Option Event × List InRec))}
    {D : List WEv} {acts : List ConAct}, (∀ op ∈ ops, op.Ordinary) → AsPrepared cfg mode s.rd →
    callsMade t ops s = some (n, s') → s'.log = s.log ++ D → c.Runs u t.inH D →
    c.play u t.inH D = some c' → (∀ a ∈ acts, a.Possible) →
    Queued mode s.rd.prev acts (c.queue ++ arriving D) held' →
    ∃ done rest, acts = done ++ rest ∧ toldEvents n = (done.filter (ConAsked cfg)).map ConAct.event ∧
      AsPrepared cfg mode s'.rd ∧ Queued mode s'.rd.prev rest c'.queue held' := by
  suffices H : ∀ (ops : List SigOp) {s s' : WinSt} {n : List (SigOp × Option (Option Event × List InRec))}
      {D : List WEv} {acts : List ConAct} {Q : List InRec}, (∀ op ∈ ops, op.Ordinary) →
      AsPrepared cfg mode s.rd → callsMade t ops s = some (n, s') → s'.log = s.log ++ D →
      (∀ a ∈ acts, a.Possible) → Queued mode s.rd.prev acts (takenRecs D ++ Q) held' →
      ∃ done rest, acts = done ++ rest ∧ toldEvents n = (done.filter (ConAsked cfg)).map ConAct.event ∧
        AsPrepared cfg mode s'.rd ∧ Queued mode s'.rd.prev rest Q held' by
    intro s s' c c' n D acts ho hm hn hl hr hp ha hq
    rw [← queue_account D c c' hr hp] at hq
    exact H ops ho hm hn hl ha hq
  intro ops
  induction ops with
  | nil =>
    intro s s' n D acts Q ho hm hn hl ha hq
    cases hn
    have : D = [] := by simpa using hl
    subst this
    exact ⟨[], acts, rfl, rfl, hm, hq⟩
  | cons op ops ih =>
    intro s s' n D acts Q ho hm hn hl ha hq
    obtain ⟨res, n', s1, rfl, h1, h2⟩ := callsMade_cons hn
    obtain ⟨D2, h5⟩ := callsMade_log ops h1
    have hop := ho op (by simp)
    have hops := fun o h => ho o (List.mem_cons_of_mem _ h)
    have h3' : ∀ n d, op ≠ .readRawEvent n d := by
      rintro n d rfl; exact hop
    have hpr : ¬ op.IsPrepare := by
      intro h; cases op <;> first | exact h | exact hop
    -- nothing read
    have quiet : ReadsNone s s1 → (match res with | some (some e, _) => tellOf e | _ => []) = [] →
        ∃ done rest, acts = done ++ rest ∧
          toldEvents ((op, res) :: n') = (done.filter (ConAsked cfg)).map ConAct.event ∧
          AsPrepared cfg mode s'.rd ∧ Queued mode s'.rd.prev rest Q held' := by
      rintro ⟨⟨D1, h3, h4⟩, hrd⟩ ht
      obtain rfl : D = D1 ++ D2 := by
        rw [h5, h3, List.append_assoc] at hl
        exact (List.append_cancel_left hl).symm
      rw [takenRecs_append, h4, List.nil_append, ← hrd] at hq
      rw [toldEvents_cons, ht, List.nil_append]
      exact ih hops (by rw [hrd]; exact hm) h1 h5 ha hq
    by_cases hre : ∃ d, op = .readEvent d
    · obtain ⟨d, rfl⟩ := hre
      rcases h2 with ⟨⟨ev, l⟩, rfl, h2⟩ | ⟨e, rfl, h2⟩
      · obtain ⟨g1, -⟩ := gives_ok h3' h2
        rcases (readEvent_took t d s).1 _ _ g1 with ⟨k1, k2⟩ | ⟨r, e, ⟨D1, h3, h4⟩, k2, k3⟩
        · refine quiet k1 ?_
          dsimp only at k2
          rcases k2 with rfl | ⟨sig, rfl⟩ <;> rfl
        · dsimp only at k2
          subst k2
          obtain rfl : D = D1 ++ D2 := by
            rw [h5, h3, List.append_assoc] at hl
            exact (List.append_cancel_left hl).symm
          rw [takenRecs_append, h4, List.append_assoc] at hq
          obtain ⟨done, rest, rfl, q1, q2, q3⟩ := queued_head hm hq ha rfl _ _ _ _ rfl k3
          have hm1 : AsPrepared cfg mode s1.rd := ⟨hm.system, hm.sizes, hm.mouse, hm.edit, fun h => q2.trans (hm.track h)⟩
          obtain ⟨done', rest', rfl, w1, w2, w3⟩ := ih hops hm1 h1 h5
            (fun a h => ha a (List.mem_append_right _ h)) q1
          refine ⟨done ++ done', rest', by rw [List.append_assoc], ?_, w2, w3⟩
          rw [toldEvents_cons, List.filter_append, List.map_append, ← w1, ← q3]
      · exact quiet ((readEvent_took t d s).2 _ _ (gives_err h3' h2)) rfl
    · have hi := inert_op t op hpr (fun d e => hre ⟨d, e⟩) h3'
      rcases h2 with ⟨⟨ev, l⟩, rfl, h2⟩ | ⟨e, rfl, h2⟩
      · obtain ⟨g1, -⟩ := gives_ok h3' h2
        refine quiet ((hi s).1 _ _ g1) ?_
        have : ev = none := by
          have key : ∀ {α : Type} {m : WM α}, (do let _ ← m; pure none : WM (Option Event)) s = .ok ev s1 →
              ev = none := by
            intro α m h
            simp only [sm_bind] at h
            cases e : m s with
            | ok a s2 => rw [e] at h; cases h; rfl
            | err _ _ => rw [e] at h; cases h
            | stop _ => rw [e] at h; cases h
          cases op with
          | prepare cfg => exact absurd trivial hpr
          | readEvent d => exact absurd ⟨d, rfl⟩ hre
          | readRaw n d => exact hop.elim
          | readRawEvent n d => exact hop.elim
          | restore st => exact hop.elim
          | wait d => exact key g1
          | write text => exact key g1
          | attr op => exact key g1
          | moveTo p => exact key g1
          | moveBy off => exact key g1
          | clearScreen => exact key g1
          | clearLine => exact key g1
          | clearRest => exact key g1
          | cursorMode m => exact key g1
        subst this
        rfl
      · exact quiet ((hi s).2 _ _ (gives_err h3' h2)) rfl

end Mortal
