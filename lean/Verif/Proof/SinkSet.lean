import Verif.Proof.Sink
import Verif.Props.Wfd
import Verif.Proof.OptValue
/-! Helper lemmas about SET_PARAMETER and runs of the sink. -/
namespace Verif.Sink
open Verif.C
open Verif.Rtsp (Msg Rd Val Arg Moves REMOTE isRemote remote local_ nextCookie Open LinesAre flat)
open Verif.Rtsp.Spec (AtRest SameText named)

/-! ### SET_PARAMETER step by step -/

def afterUrl (s : St) (m : Msg) : St :=
  match Spec.word m "wfd_presentation_URL" with
  | some v => { s with url := some v }
  | none => s

def afterUibc (s : St) (m : Msg) : Option St :=
  match Spec.value m "wfd_uibc_capability" with
  | some v => setUibc s v
  | none => some s

def afterSetting (s : St) (m : Msg) : St :=
  match Spec.word m "wfd_uibc_setting" with
  | some v => { s with uibcSetting := some v }
  | none => s

def afterFormats (s : St) (m : Msg) : Option (Bool × St) :=
  match Spec.formats m with
  | none => none
  | some none => some (true, s)
  | some (some (c, v, h)) => (setFormat s c v h).map fun r => (decide (r.1 = 0), r.2)

def afterTrigger (mv : Moves) (s : St) (m : Msg) : Option St :=
  match Spec.word m "wfd_trigger_method" with
  | none => some s
  | some v => trigger mv s v

theorem word_same {a b : Msg} (h : SameText a b) (n : String) : Spec.word a n = Spec.word b n := by
  unfold Spec.word; rw [same_body h]
theorem value_same {a b : Msg} (h : SameText a b) (n : String) : Spec.value a n = Spec.value b n := by
  unfold Spec.value; rw [same_body h]
theorem formats_same {a b : Msg} (h : SameText a b) : Spec.formats a = Spec.formats b := by
  unfold Spec.formats; rw [same_body h]

theorem takeFormats_eq (s : St) (m : Msg) (hm : AtRest m) :
    (takeFormats s m = none ∧ afterFormats s m = none) ∨
    ∃ m' r, AtRest m' ∧ SameText m' m ∧ takeFormats s m = some (r.1, r.2, m') ∧ afterFormats s m = some r := by
  obtain ⟨h1, h2⟩ := Rtsp.parameter_exact m hm (bytes "wfd_video_formats") (by decide) [.skip, .skip, .skip, .skip, .hex, .hex, .hex]
  simp only [List.map_cons, List.map_nil, List.cons_append, List.nil_append, Rtsp.Spec.Conv.rd] at h1 h2
  unfold takeFormats afterFormats Spec.formats
  cases hr : Rtsp.read m [.bodyStart, .headerStart (bytes "wfd_video_formats"), .skip, .skip, .skip, .skip, .hex, .hex, .hex, .headerEnd, .bodyEnd] with
  | none =>
    left
    rw [hr] at h1
    rw [← h1]
    exact ⟨rfl, rfl⟩
  | some f =>
    obtain ⟨h3, h4⟩ := h2 f hr
    rw [hr] at h1
    rw [← h1]
    simp only [Option.map_some, Option.bind_eq_bind, Option.bind_some]
    split
    · rename_i c v h e1 e2
      simp only [e1, e2]
      cases hs : setFormat s c v h with
      | none => exact Or.inl ⟨rfl, rfl⟩
      | some r => exact Or.inr ⟨f.2.1, _, h3, h4, rfl, rfl⟩
    · rename_i hne
      right
      refine ⟨f.2.1, (true, s), h3, h4, rfl, ?_⟩
      split
      · rename_i he; cases he
      · rfl
      · rename_i c v h he
        split at he
        · rename_i c' v' h' e3
          simp only [Prod.mk.injEq] at e3
          exact absurd e3.2 (hne _ _ _ e3.1)
        · cases he

theorem take_eq (mv : Moves) (s : St) (m : Msg) (hm : AtRest m) :
    takeParams mv s m = (afterUibc (afterUrl s m) m).bind fun s => (afterFormats (afterSetting s m) m).bind fun r =>
      if r.1 = false then some r.2 else afterTrigger mv r.2 m := by
  obtain ⟨m1, a1, a2, a3⟩ := param_word m hm "wfd_presentation_URL" (by decide)
  obtain ⟨m2, b1, b2, b3⟩ := param_value m1 a2 "wfd_uibc_capability" (by decide)
  obtain ⟨m3, c1, c2, c3⟩ := param_word m2 b2 "wfd_uibc_setting" (by decide)
  have s2 : SameText m2 m := b3.trans a3
  have s3 : SameText m3 m := c3.trans s2
  rw [value_same a3] at b1
  rw [word_same s2] at c1
  unfold takeParams
  simp only [a1, b1, c1, Option.bind_eq_bind, Option.bind_some]
  show (afterUibc (afterUrl s m) m).bind _ = _
  congr 1
  funext t
  show (takeFormats (afterSetting t m) m3).bind _ = _
  have hf : afterFormats (afterSetting t m) m3 = afterFormats (afterSetting t m) m := by
    unfold afterFormats; rw [formats_same s3]
  rcases takeFormats_eq (afterSetting t m) m3 c2 with ⟨h1, h2⟩ | ⟨m4, r, d1, d2, d3, d4⟩
  · rw [h1, ← hf, h2]; rfl
  · rw [d3, ← hf, d4]
    simp only [Option.bind_some]
    cases r.1
    · rfl
    · simp only [Bool.true_eq_false, if_false]
      obtain ⟨m5, e1, e2, e3⟩ := param_word m4 d1 "wfd_trigger_method" (by decide)
      rw [word_same (d2.trans s3)] at e1
      simp only [e1, Option.bind_some]
      rfl

/-- The parts a step of SET_PARAMETER leaves alone. -/
structure Kept (a b : St) : Prop where
  cfg : b.cfg = a.cfg
  fd : b.fd = a.fd
  bus : b.bus = a.bus
  connected : b.connected = a.connected
  hup : b.hup = a.hup
  session : b.session = a.session
  opened : b.opened = a.opened

theorem Kept.refl (s : St) : Kept s s := ⟨rfl, rfl, rfl, rfl, rfl, rfl, rfl⟩
theorem Kept.trans {a b c : St} (h : Kept a b) (h' : Kept b c) : Kept a c :=
  ⟨h'.1.trans h.1, h'.2.trans h.2, h'.3.trans h.3, h'.4.trans h.4, h'.5.trans h.5, h'.6.trans h.6, h'.7.trans h.7⟩

theorem afterUrl_keeps (s : St) (m : Msg) : Kept s (afterUrl s m) ∧ (afterUrl s m).log = s.log ∧ (afterUrl s m).setups = s.setups ∧ (afterUrl s m).cookies = s.cookies ∧
    (afterUrl s m).url = (Spec.word m "wfd_presentation_URL").or s.url ∧ (afterUrl s m).uibcConfig = s.uibcConfig ∧ (afterUrl s m).uibcEnabled = s.uibcEnabled ∧
    (afterUrl s m).uibcPort = s.uibcPort := by
  unfold afterUrl
  cases Spec.word m "wfd_presentation_URL" <;> exact ⟨⟨rfl, rfl, rfl, rfl, rfl, rfl, rfl⟩, rfl, rfl, rfl, rfl, rfl, rfl, rfl⟩

theorem setUibc_keeps (s s' : St) (v : List Byte) (h : setUibc s v = some s') : Kept s s' ∧ s'.log = s.log ∧ s'.setups = s.setups ∧ s'.cookies = s.cookies ∧ s'.url = s.url := by
  unfold setUibc at h
  split at h
  · cases h; exact ⟨Kept.refl s, rfl, rfl, rfl, rfl⟩
  · simp only at h
    split at h
    · cases h; exact ⟨⟨rfl, rfl, rfl, rfl, rfl, rfl, rfl⟩, rfl, rfl, rfl, rfl⟩
    · simp only [Option.bind_eq_bind, Option.bind_eq_some_iff] at h
      obtain ⟨r, _, h⟩ := h
      cases h
      exact ⟨⟨rfl, rfl, rfl, rfl, rfl, rfl, rfl⟩, rfl, rfl, rfl, rfl⟩

theorem afterUibc_keeps (s s' : St) (m : Msg) (h : afterUibc s m = some s') : Kept s s' ∧ s'.log = s.log ∧ s'.setups = s.setups ∧ s'.cookies = s.cookies ∧ s'.url = s.url := by
  unfold afterUibc at h
  split at h
  · exact setUibc_keeps s s' _ h
  · cases h; exact ⟨Kept.refl s, rfl, rfl, rfl, rfl⟩

theorem afterSetting_keeps (s : St) (m : Msg) : Kept s (afterSetting s m) ∧ (afterSetting s m).log = s.log ∧ (afterSetting s m).setups = s.setups ∧
    (afterSetting s m).cookies = s.cookies ∧ (afterSetting s m).url = s.url ∧ (afterSetting s m).uibcEnabled = s.uibcEnabled ∧ (afterSetting s m).uibcPort = s.uibcPort := by
  unfold afterSetting
  cases Spec.word m "wfd_uibc_setting" <;> exact ⟨⟨rfl, rfl, rfl, rfl, rfl, rfl, rfl⟩, rfl, rfl, rfl, rfl, rfl, rfl⟩

theorem afterFormats_cases (s : St) (m : Msg) (r : Bool × St) (h : afterFormats s m = some r) :
    ∃ f res, Spec.formats m = some f ∧ Spec.Choice f res r.1 ∧ Kept s r.2 ∧ r.2.log = s.log ++ Spec.shown res ∧ r.2.setups = s.setups ∧ r.2.cookies = s.cookies ∧ r.2.url = s.url ∧
      r.2.uibcEnabled = s.uibcEnabled ∧ r.2.uibcPort = s.uibcPort := by
  unfold afterFormats at h
  cases hf : Spec.formats m with
  | none => rw [hf] at h; cases h
  | some f =>
    rw [hf] at h
    cases f with
    | none =>
      cases h
      exact ⟨none, none, rfl, .nothing rfl, Kept.refl s, by simp [Spec.shown], rfl, rfl, rfl, rfl, rfl⟩
    | some q =>
      obtain ⟨c, v, hh⟩ := q
      simp only [Option.map_eq_some_iff] at h
      obtain ⟨x, hx, h⟩ := h
      subst h
      unfold setFormat at hx
      rcases Wfd.setFormat_chooses ⟨s.hres, s.vres, 0⟩ c v hh with ⟨a, b, e1, e2⟩ | ⟨e1, e2, e3, e4⟩
      · rw [e1] at hx
        simp only [Option.bind_eq_bind, Option.bind_some] at hx
        rw [if_neg (Int.lt_irrefl 0)] at hx
        cases hx
        exact ⟨some (c, v, hh), some (a, b), rfl, .chosen c v hh a b rfl e2, ⟨rfl, rfl, rfl, rfl, rfl, rfl, rfl⟩, rfl, rfl, rfl, rfl, rfl, rfl⟩
      · rw [e1] at hx
        simp only [Option.bind_eq_bind, Option.bind_some] at hx
        rw [if_pos (by decide)] at hx
        cases hx
        exact ⟨some (c, v, hh), none, rfl, .refused c v hh rfl e2 e3 e4, Kept.refl s, by simp [Spec.shown], rfl, rfl, rfl, rfl, rfl⟩

theorem decInt_length (i : Int) (h : -2147483648 ≤ i) (h' : i < 2147483648) : (decInt i).length ≤ 11 := by
  have hd : ∀ n : Nat, n ≤ 2147483648 → (dec n).length ≤ 10 := by
    intro n hn
    exact OptValue.dec_length 9 n (by simpa using Nat.lt_of_le_of_lt hn (by decide))
  unfold decInt
  split
  · have := hd i.natAbs (by omega)
    simp only [List.length_cons]
    omega
  · have := hd i.natAbs (by omega)
    omega

/-! ### Requests without a bound on the counter -/

theorem nextCookie_ne (c : Nat) : nextCookie c ≠ 0 := by
  unfold nextCookie
  split
  · decide
  · assumption

theorem request_cases (mv : Moves) (s : St) (method uri name value : List Byte) (setup : Bool) (hm : method ≠ []) (hn : name ≠ []) (hp : Rtsp.Plain name) :
    ∃ r s', request mv s method uri name value setup = some (r, s') ∧
      ((r = -EINVAL ∧ (s' = s ∨ s' = { s with cookies := nextCookie s.cookies })) ∨
       (r = 0 ∧ uri ≠ [] ∧ s.bus = true ∧ s' = { s with
          cookies := nextCookie s.cookies
          log := s.log ++ [.sent (Spec.call method uri (name ++ bytes ": " ++ Spec.quoted value) (local_ (nextCookie s.cookies)))]
          setups := if setup then s.setups ++ [nextCookie s.cookies] else s.setups })) := by
  unfold request
  by_cases hu : uri = []
  · have : Rtsp.newRequest method uri = none := by
      unfold Rtsp.newRequest
      rw [if_pos (Or.inr hu)]
    rw [this]
    exact ⟨_, _, rfl, Or.inl ⟨rfl, Or.inl rfl⟩⟩
  have e : Rtsp.newRequest method uri = some { Rtsp.newMsg with type := .request, method := method, uri := uri } := by
    unfold Rtsp.newRequest
    rw [if_neg (fun h => h.elim hm hu)]
  have hr : Ready { Rtsp.newMsg with type := .request, method := method, uri := uri } (method ++ bytes " " ++ uri ++ bytes " RTSP/1.0") [] [] := by
    refine ⟨⟨by simp, rfl, rfl, rfl⟩, rfl, rfl, rfl, rfl, ?_, rfl, rfl, by decide⟩
    show some (method ++ [ch ' '] ++ uri ++ bytes " RTSP/" ++ dec 1 ++ [ch '.'] ++ dec 0 ++ [13, 10]) = _
    have : bytes " RTSP/" ++ dec 1 ++ [ch '.'] ++ dec 0 = bytes " RTSP/1.0" := by decide +kernel
    rw [← this]
    simp only [Rtsp.crlf, List.append_assoc, show bytes " " = [ch ' '] from by decide]
  obtain ⟨m, a1, a2, a3, a4⟩ := hdr_ok mv _ _ hr (Or.inl rfl) name value hn hp rfl
  have a3 : m.type = .request := a3
  have a4 : m.cookie = 0 := a4
  simp only [e, a1, Option.bind_eq_bind, Option.bind_some]
  rw [if_neg (Int.lt_irrefl 0)]
  obtain ⟨m', e1, e2, e3, e4, e5⟩ := seal_ready mv s.cookies m _ _ _ a2 (Or.inl a3)
  rw [if_pos a4] at e1
  rw [if_neg (by rw [a3]; simp), if_pos a4] at e4
  rw [e4] at e5
  unfold send
  simp only [e1, Option.bind_eq_bind, Option.bind_some]
  by_cases hb : s.bus = false
  · rw [if_pos (Or.inl hb)]
    exact ⟨_, _, rfl, Or.inl ⟨rfl, Or.inr rfl⟩⟩
  rw [if_neg (by rintro (h | h); · exact hb h
                 · rw [e4] at h; exact nextCookie_ne _ h)]
  simp only [seal_again mv _ m' e2, Option.bind_some]
  rw [if_neg (Int.lt_irrefl 0)]
  simp only [e5]
  by_cases hq : isRemote m'.cookie = true
  · rw [if_pos (by rw [e3, a3]; simp [hq])]
    exact ⟨_, _, rfl, Or.inl ⟨rfl, Or.inr rfl⟩⟩
  · rw [if_neg (fun h => hq h.1), if_neg (by rw [e3, a3]; simp), e4]
    exact ⟨_, _, rfl, Or.inr ⟨rfl, hu, by simpa using hb, rfl⟩⟩

end Verif.Sink
