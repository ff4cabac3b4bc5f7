import Verif.Proof.RtspNest
/-! Sequences of calls that build a message: helper lemmas. -/
namespace Verif.Rtsp
open Verif.C
open Spec (Doc Field Draft Holds shows Build Made)

theorem made_building (mv : Moves) (m : Msg) (h : Made m) : Building mv Doc.empty m := by
  have key : ∀ m : Msg, m.type ≠ .data → m.isSealed = false → m.raw = none → m.body = none → m.iterBody = false → m.iterHeader = none →
      m.headers = [] → m.bodyHeaders = [] → m.hcap = 0 → m.clen = none → m.ctype = none → m.cseq = none → Building mv Doc.empty m := by
    intro m h1 h2 h3 h4 h5 h6 h7 h8 h9 h10 h11 h12
    refine ⟨h1, ⟨h2, h3, h4, h5, [], [], rfl, rfl, by simp, h6, h7, h8⟩, Or.inl ⟨?_, Or.inl h9, ?_, ?_, ?_⟩⟩
    · rw [h7]; simp
    · intro p hp; rw [h10] at hp; cases hp
    · intro p hp; rw [h11] at hp; cases hp
    · intro p hp; rw [h12] at hp; cases hp
  have raw : ∀ code phrase m, newRawReply code phrase = some m → Building mv Doc.empty m := by
    intro code phrase m h
    unfold newRawReply at h
    split at h
    · cases h
    · cases h; exact key _ (by simp) rfl rfl rfl rfl rfl rfl rfl rfl rfl rfl rfl
  have rep : ∀ ck code phrase m, newReply ck code phrase = some m → Building mv Doc.empty m := by
    intro ck code phrase m h
    unfold newReply at h
    split at h
    · cases h
    · rw [Option.map_eq_some_iff] at h
      obtain ⟨x, hx, h⟩ := h
      cases h
      exact (raw code phrase x hx).cookie _
  cases h with
  | unknown head => exact key _ (by simp [newUnknown]) rfl rfl rfl rfl rfl rfl rfl rfl rfl rfl rfl
  | request a b _ h =>
    unfold newRequest at h
    split at h
    · cases h
    · cases h; exact key _ (by simp) rfl rfl rfl rfl rfl rfl rfl rfl rfl rfl rfl
  | rawReply a b _ h => exact raw a b m h
  | reply a b c _ h => exact rep a b c m h
  | replyFor o b c _ h =>
    unfold newReplyFor at h
    split at h
    · cases h
    · exact rep _ b c m h

/-- The answer of a sealed message. -/
theorem sealed_call (mv : Moves) (ck : Nat) (m : Msg) (b : Build) (hs : m.isSealed = true) (ht : m.type ≠ .data) :
    Spec.call mv (ck, m) b = some (Spec.expectSealed b, ck, m) := by
  cases b with
  | append as =>
    cases as with
    | nil => simp [Spec.call, append, ht, hs, Spec.expectSealed]
    | cons a t =>
      have : appendBasic mv m a = some (-EBUSY, m) := by unfold appendBasic; rw [if_neg ht, if_pos hs]
      have e : append mv m (a :: t) = some (-EBUSY, m) := by
        simp only [append, this, Option.bind_eq_bind, Option.bind_some]
        exact if_pos (show (-EBUSY : Int) < 0 by decide)
      simp only [Spec.call, e, Spec.expectSealed, Option.map_some]
  | line s => simp [Spec.call, appendLine, ht, hs, Spec.expectSealed]
  | openHeader n =>
    cases n with
    | nil => simp [Spec.call, openHeader, Spec.expectSealed]
    | cons a t => simp [Spec.call, openHeader, ht, hs, Spec.expectSealed]
  | closeHeader => simp [Spec.call, closeHeader, ht, hs, Spec.expectSealed]
  | openBody => simp [Spec.call, openBody, ht, hs, Spec.expectSealed]
  | closeBody => simp [Spec.call, closeBody, ht, hs, Spec.expectSealed]
  | cookie c => simp [Spec.call, setCookie, hs, Spec.expectSealed]
  | finish => simp [Spec.call, sealMsg, hs, Spec.expectSealed]

/-- The answer of a data frame. -/
theorem data_call (mv : Moves) (ck : Nat) (m : Msg) (b : Build) (ht : m.type = .data) (hi : m.isSealed = true ∨ (m.iterBody = false ∧ m.iterHeader = none)) :
    ∃ ck' m', Spec.call mv (ck, m) b = some (Spec.expectData m.isSealed b, ck', m') ∧ m'.type = .data ∧
      m'.isSealed = (m.isSealed || decide (b = .finish)) ∧ m'.iterBody = m.iterBody ∧ m'.iterHeader = m.iterHeader ∧
      (m.isSealed = true ∨ Spec.expectData m.isSealed b ≠ 0 → ck' = ck ∧ m' = m) := by
  cases b with
  | append as =>
    refine ⟨ck, m, ?_, ht, by simp, rfl, rfl, fun _ => ⟨rfl, rfl⟩⟩
    cases as with
    | nil => simp [Spec.call, append, ht, Spec.expectData]
    | cons a t =>
      have : appendBasic mv m a = some (-EINVAL, m) := by unfold appendBasic; rw [if_pos ht]
      have e : append mv m (a :: t) = some (-EINVAL, m) := by
        simp only [append, this, Option.bind_eq_bind, Option.bind_some]
        exact if_pos (show (-EINVAL : Int) < 0 by decide)
      simp only [Spec.call, e, Spec.expectData, Option.map_some]
  | line s => exact ⟨ck, m, by simp [Spec.call, appendLine, ht, Spec.expectData], ht, by simp, rfl, rfl, fun _ => ⟨rfl, rfl⟩⟩
  | openHeader n => exact ⟨ck, m, by simp [Spec.call, openHeader, ht, Spec.expectData], ht, by simp, rfl, rfl, fun _ => ⟨rfl, rfl⟩⟩
  | closeHeader => exact ⟨ck, m, by simp [Spec.call, closeHeader, ht, Spec.expectData], ht, by simp, rfl, rfl, fun _ => ⟨rfl, rfl⟩⟩
  | openBody => exact ⟨ck, m, by simp [Spec.call, openBody, ht, Spec.expectData], ht, by simp, rfl, rfl, fun _ => ⟨rfl, rfl⟩⟩
  | closeBody => exact ⟨ck, m, by simp [Spec.call, closeBody, ht, Spec.expectData], ht, by simp, rfl, rfl, fun _ => ⟨rfl, rfl⟩⟩
  | cookie c =>
    cases hs : m.isSealed with
    | true => exact ⟨ck, m, by simp [Spec.call, setCookie, hs, Spec.expectData], ht, by simp [hs], rfl, rfl, fun _ => ⟨rfl, rfl⟩⟩
    | false =>
      have e : setCookie m c = (0, { m with cookie := if m.type = .reply then remote c else local_ c }) := by
        unfold setCookie; rw [hs]; rfl
      exact ⟨ck, { m with cookie := if m.type = .reply then remote c else local_ c }, by simp only [Spec.call, e]; rfl, ht, by simp [hs], rfl, rfl, by simp [Spec.expectData]⟩
  | finish =>
    cases hs : m.isSealed with
    | true => exact ⟨ck, m, by simp [Spec.call, sealMsg, hs, Spec.expectData], ht, by simp [hs], rfl, rfl, fun _ => ⟨rfl, rfl⟩⟩
    | false =>
      rcases hi with hi | ⟨h1, h2⟩
      · rw [hi] at hs; cases hs
      · have e : sealMsg mv ck m = some (0, (if m.cookie = 0 then nextCookie ck else ck),
            { serializeData { m with cookie := if m.cookie = 0 then nextCookie ck else m.cookie } with isSealed := true }) := by
          unfold sealMsg
          simp only [hs, h1, h2, ht]
          by_cases hc : m.cookie = 0 <;> simp [hc]
        exact ⟨_, _, e, ht, by simp, rfl, rfl, by simp [Spec.expectData]⟩

/-- Where a message is. -/
inductive Phase (mv : Moves) (d : Doc) : Bool → Msg → Prop
  | building (m : Msg) : Building mv d m → Phase mv d false m
  | done (m : Msg) : m.isSealed = true → m.type ≠ .data → Phase mv d true m

/-- One call on a message that is being built. -/
theorem build_call (mv : Moves) (ck : Nat) (d : Doc) (m : Msg) (b : Build) (hd : Building mv d m) :
    (∃ ck' m', Spec.call mv (ck, m) b = some ((Spec.expect d b).1, ck', m') ∧
      Phase mv (Spec.expect d b).2 (b = .finish ∧ (Spec.expect d b).1 = 0) m' ∧
      ((Spec.expect d b).1 ≠ 0 → (∀ as, b = .append as → as.length ≤ 1) → ck' = ck ∧ m' = m)) ∨
    (b = .finish ∧ d.draft = none ∧ d.inBody = false ∧ Crowded mv m ∧ sealMsg mv ck m = none) := by
  have nofin : ∀ b : Build, b ≠ .finish → ∀ x, (decide (b = .finish ∧ x = (0 : Int))) = false := by
    intro b hb x; simp [hb]
  -- calls that do one thing
  have one : ∀ (b : Build) (e : Option Doc) (r : Int × Msg), b ≠ .finish → Did mv d m e r → Spec.expect d b = Spec.settle d e →
      Spec.call mv (ck, m) b = some (r.1, ck, r.2) →
      (∃ ck' m', Spec.call mv (ck, m) b = some ((Spec.expect d b).1, ck', m') ∧
        Phase mv (Spec.expect d b).2 (b = .finish ∧ (Spec.expect d b).1 = 0) m' ∧
        ((Spec.expect d b).1 ≠ 0 → (∀ as, b = .append as → as.length ≤ 1) → ck' = ck ∧ m' = m)) := by
    intro b e r hb hD he hc
    rw [nofin b hb, he, hc]
    cases e with
    | some d' =>
      obtain ⟨h0, h1⟩ : r.1 = 0 ∧ Building mv d' r.2 := hD
      exact ⟨ck, r.2, by rw [h0]; rfl, .building _ h1, fun h => absurd rfl h⟩
    | none =>
      have hD : r = (-EINVAL, m) := hD
      rw [hD]
      exact ⟨ck, m, rfl, .building _ hd, fun _ _ => ⟨rfl, rfl⟩⟩
  cases b with
  | append as =>
    left
    obtain ⟨r, hr, h1, h2⟩ := nest_append_step mv as d m hd
    refine ⟨ck, r.2, by simp only [Spec.call, hr, Option.map_some, h1]; rfl, ?_, ?_⟩
    · rw [nofin _ (by simp)]; exact .building _ h2
    · intro hne hl
      have hl := hl as rfl
      match as, hl with
      | [], _ => simp [Spec.expect, Spec.writeAll] at hne
      | [a], _ =>
        obtain ⟨q, hq, hD⟩ := basic_step mv d m a hd
        cases hw : Spec.write d a with
        | some d' => simp [Spec.expect, Spec.writeAll, hw] at hne
        | none =>
          rw [hw] at hD
          have hD : q = (-EINVAL, m) := hD
          simp only [append, hq, hD, Option.bind_eq_bind, Option.bind_some] at hr
          rw [if_pos (show (-EINVAL : Int) < 0 by decide)] at hr
          cases hr
          exact ⟨rfl, rfl⟩
  | line s =>
    left
    refine one _ _ _ (by simp) (nest_line_step mv d m s hd) ?_ rfl
    simp only [Spec.expect]
    split <;> rfl
  | openHeader n => exact Or.inl (one _ _ _ (by simp) (open_step mv d m n hd) rfl rfl)
  | closeHeader =>
    obtain ⟨r, hr, hD⟩ := close_step mv d m hd
    exact Or.inl (one _ _ _ (by simp) hD rfl (by simp only [Spec.call, hr]; rfl))
  | openBody => exact Or.inl (one _ _ _ (by simp) (openBody_step mv d m hd) rfl rfl)
  | closeBody => exact Or.inl (one _ _ _ (by simp) (closeBody_step mv d m hd) rfl rfl)
  | cookie c =>
    left
    have e : setCookie m c = (0, { m with cookie := if m.type = .reply then remote c else local_ c }) := by
      unfold setCookie; rw [hd.holds.1]; rfl
    refine ⟨ck, _, by simp only [Spec.call, e]; rfl, ?_, by simp [Spec.expect]⟩
    rw [nofin _ (by simp)]
    exact .building _ (hd.cookie _)
  | finish =>
    have h := seal_step mv ck d m hd
    by_cases h0 : d.draft = none ∧ d.inBody = false
    · rw [if_pos h0] at h
      rcases h with ⟨ck', m', h1, h2, h3⟩ | h
      · left
        refine ⟨ck', m', by simp [Spec.call, h1, Spec.expect, h0], ?_, by simp [Spec.expect, h0]⟩
        simp only [Spec.expect, h0, and_self, if_true, decide_true]
        exact .done _ h2 (by rw [h3]; exact hd.type)
      · exact Or.inr ⟨rfl, h0.1, h0.2, h⟩
    · rw [if_neg h0] at h
      left
      have hz : ¬ (-EINVAL : Int) = 0 := by decide
      refine ⟨ck, m, by simp [Spec.call, h, Spec.expect, h0], ?_, fun _ _ => ⟨rfl, rfl⟩⟩
      simp only [Spec.expect, h0, if_false, hz, and_false, decide_false]
      exact .building _ hd

theorem sealed_calls (mv : Moves) (d : Doc) (bs : List Build) : ∀ (ck : Nat) (m : Msg), m.isSealed = true → m.type ≠ .data →
    Spec.calls mv (ck, m) bs = some (Spec.expectAll true d bs, ck, m) := by
  induction bs with
  | nil => intro ck m _ _; rfl
  | cons b t ih =>
    intro ck m hs ht
    simp only [Spec.calls, sealed_call mv ck m b hs ht, Option.bind_eq_bind, Option.bind_some, ih ck m hs ht]
    rfl

/-- Sequences of calls on a message that is being built. -/
theorem build_calls (mv : Moves) (bs : List Build) : ∀ (ck : Nat) (d : Doc) (m : Msg), Building mv d m →
    (∃ s, Spec.calls mv (ck, m) bs = some (Spec.expectAll false d bs, s) ∧
      s.2.isSealed = Spec.finished d bs ∧ (Spec.finished d bs = false → Building mv (Spec.document d bs) s.2)) ∨
    (Spec.calls mv (ck, m) bs = none ∧
      ∃ pre post q, bs = pre ++ .finish :: post ∧ Spec.calls mv (ck, m) pre = some q ∧ Spec.finished d pre = false ∧
      Crowded mv q.2.2) := by
  induction bs with
  | nil => intro ck d m hd; exact Or.inl ⟨(ck, m), rfl, hd.holds.1, fun _ => hd⟩
  | cons b t ih =>
    intro ck d m hd
    rcases build_call mv ck d m b hd with ⟨ck', m', h1, h2, _⟩ | ⟨h1, _, _, h2, h3⟩
    · by_cases hf : b = .finish ∧ (Spec.expect d b).1 = 0
      · rw [decide_eq_true hf] at h2
        cases h2 with
        | done _ hs ht =>
          left
          refine ⟨(ck', m'), ?_, ?_, ?_⟩
          · simp only [Spec.calls, h1, Option.bind_eq_bind, Option.bind_some, sealed_calls mv (Spec.expect d b).2 t ck' m' hs ht, Spec.expectAll,
              decide_eq_true hf]
          · simp only [Spec.finished, decide_eq_true hf]; exact hs
          · simp only [Spec.finished, decide_eq_true hf]; intro h; cases h
      · rw [decide_eq_false hf] at h2
        cases h2 with
        | building _ hb =>
          rcases ih ck' _ m' hb with ⟨s, i1, i2, i3⟩ | ⟨i0, pre, post, q, i1, i2, i3, i4⟩
          · left
            refine ⟨s, ?_, ?_, ?_⟩
            · simp only [Spec.calls, h1, Option.bind_eq_bind, Option.bind_some, i1, Spec.expectAll, decide_eq_false hf]
            · simp only [Spec.finished, decide_eq_false hf]; exact i2
            · simp only [Spec.finished, decide_eq_false hf]; exact i3
          · right
            refine ⟨by simp only [Spec.calls, h1, Option.bind_eq_bind, Option.bind_some, i0]; rfl, b :: pre, post, ((Spec.expect d b).1 :: q.1, q.2), by rw [i1]; rfl, ?_, ?_, i4⟩
            · simp only [Spec.calls, h1, Option.bind_eq_bind, Option.bind_some, i2]
            · simp only [Spec.finished, decide_eq_false hf]; exact i3
    · right
      subst h1
      exact ⟨by simp only [Spec.calls, Spec.call, h3]; rfl, [], t, ([], ck, m), rfl, rfl, rfl, h2⟩

theorem frame_calls (mv : Moves) (bs : List Build) : ∀ (ck : Nat) (m : Msg), m.type = .data → (m.isSealed = true ∨ (m.iterBody = false ∧ m.iterHeader = none)) →
    ∃ s, Spec.calls mv (ck, m) bs = some (Spec.expectFrame m.isSealed bs, s) ∧ (m.isSealed = true → s = (ck, m)) := by
  induction bs with
  | nil => intro ck m _ _; exact ⟨_, rfl, fun _ => rfl⟩
  | cons b t ih =>
    intro ck m ht hi
    obtain ⟨ck', m', h1, h2, h3, h4, h5, h6⟩ := data_call mv ck m b ht hi
    have hi' : m'.isSealed = true ∨ (m'.iterBody = false ∧ m'.iterHeader = none) := by
      rcases hi with hi | hi
      · left; rw [h3, hi]; rfl
      · right; rw [h4, h5]; exact hi
    obtain ⟨s, e1, e2⟩ := ih ck' m' h2 hi'
    refine ⟨s, ?_, ?_⟩
    · simp only [Spec.calls, h1, Option.bind_eq_bind, Option.bind_some, e1, Spec.expectFrame, h3]
    · intro hs
      obtain ⟨a, b⟩ := h6 (Or.inl hs)
      rw [e2 (by rw [h3, hs]; rfl), a, b]

theorem sealed_call_any (mv : Moves) (ck : Nat) (m : Msg) (b : Build) (hs : m.isSealed = true) :
    ∃ c, Spec.call mv (ck, m) b = some (c, ck, m) := by
  by_cases ht : m.type = .data
  · obtain ⟨ck', m', h1, _, _, _, _, h2⟩ := data_call mv ck m b ht (Or.inl hs)
    obtain ⟨a, b⟩ := h2 (Or.inl hs)
    rw [a, b] at h1
    exact ⟨_, h1⟩
  · exact ⟨_, sealed_call mv ck m b hs ht⟩

theorem append_prefix (mv : Moves) (as : List Arg) : ∀ (d : Doc) (m : Msg), Building mv d m → ∀ (c : Int) (m' : Msg), append mv m as = some (c, m') → c ≠ 0 →
    c = -EINVAL ∧ ∃ pre a post, as = pre ++ a :: post ∧ append mv m pre = some (0, m') ∧ appendBasic mv m' a = some (-EINVAL, m') := by
  induction as with
  | nil =>
    intro d m hd c m' h hc
    unfold append at h
    have hns : ¬ m.isSealed = true := by rw [hd.holds.1]; decide
    rw [if_neg hd.type, if_neg hns] at h
    cases h
    exact absurd rfl hc
  | cons a t ih =>
    intro d m hd c m' h hc
    have hns : ¬ m.isSealed = true := by rw [hd.holds.1]; decide
    obtain ⟨r, hr, hD⟩ := basic_step mv d m a hd
    unfold append at h
    rw [hr] at h
    simp only [Option.bind_eq_bind, Option.bind_some] at h
    cases hw : Spec.write d a with
    | none =>
      rw [hw] at hD
      have hD : r = (-EINVAL, m) := hD
      have hlt : ((-EINVAL, m) : Int × Msg).1 < 0 := by show -EINVAL < 0; decide
      rw [hD, if_pos hlt] at h
      cases h
      rw [hD] at hr
      exact ⟨rfl, [], a, t, rfl, by unfold append; rw [if_neg hd.type, if_neg hns], hr⟩
    | some d' =>
      rw [hw] at hD
      obtain ⟨h0, hb⟩ : r.1 = 0 ∧ Building mv d' r.2 := hD
      rw [h0, if_neg (by decide)] at h
      by_cases ht : t = []
      · rw [if_pos ht] at h
        cases h
        exact absurd rfl hc
      · rw [if_neg ht] at h
        obtain ⟨e1, pre, x, post, e2, e3, e4⟩ := ih d' r.2 hb c m' h hc
        refine ⟨e1, a :: pre, x, post, by rw [e2]; rfl, ?_, e4⟩
        unfold append
        rw [hr]
        simp only [Option.bind_eq_bind, Option.bind_some]
        rw [h0, if_neg (by decide)]
        by_cases hp : pre = []
        · rw [if_pos hp]
          rw [hp] at e3
          have hns' : ¬ r.2.isSealed = true := by rw [hb.holds.1]; decide
          unfold append at e3
          rw [if_neg hb.type, if_neg hns'] at e3
          exact e3
        · rw [if_neg hp]; exact e3

/-- Equal but for the position of the reader. -/
def SameBut (m n : Msg) : Prop := { n with iterBody := m.iterBody, iterHeader := m.iterHeader, iterToken := m.iterToken } = m

theorem look_same (m : Msg) (l : Spec.Look) : SameBut m (Spec.look m l) := by
  cases l with
  | enterHeader n =>
    simp only [Spec.look, enterHeader]
    repeat' split
    all_goals rfl
  | exitHeader => simp only [Spec.look, exitHeader]; split <;> rfl
  | enterBody =>
    simp only [Spec.look, enterBody]
    repeat' split
    all_goals rfl
  | exitBody => simp only [Spec.look, exitBody]; split <;> rfl

end Verif.Rtsp
