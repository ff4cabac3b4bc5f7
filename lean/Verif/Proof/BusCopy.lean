import Verif.Proof.BusJoin
import Verif.Props.Mirror
/-! # Helper lemmas: from what a listener knows to the copy -/
namespace Verif.Daemon
open Verif.C Mirror
open Wifid (Canon Obj View Sig vis quiet peerVis)

variable {A : List Byte → Nat → Prop} {S : Nat → Prop} {Mg : Nat → Bool → Prop}

theorem public_vis {d : D} (hi : Wifid.Inv d.m) (mac : List Byte) (i : Nat) : Public d mac i ↔ vis d.m (.peer mac i) ≠ none := by
  constructor
  · rintro ⟨l, hl, rfl, p, hp, rfl, hpub⟩
    rw [Wifid.vis_peer (Wifid.find_of_mem hi.shape.nd hl), Wifid.peerVis_mem (hi.shape.good l hl).nd hp, hpub]
    simp
  · intro hv
    cases hl : d.m.find i with
    | none => simp [vis, hl] at hv
    | some l =>
      rw [Wifid.vis_peer hl] at hv
      obtain ⟨p, hp, hm, hpub⟩ := Wifid.peerVis_some hv
      exact ⟨l, (Wifid.find_idx hl).2, (Wifid.find_idx hl).1, p, hp, hm, hpub⟩

/-- Everything that is required of the copy. -/
structure Held {σ : Type} (A : List Byte → Nat → Prop) (S : Nat → Prop) (Mg : Nat → Bool → Prop) (d : D) (w : Mirror.W σ) : Prop where
  link : ∀ l ∈ d.m.links, ∃ k, w.findLink (dec l.idx) = some k ∧ linkShown l k.view ∧ (d.scan l.idx = true → k.scanning = true) ∧ (S l.idx → k.scanning = d.scan l.idx) ∧ Mg l.idx k.managed
  peer : ∀ mac i, Public d mac i → ∃ p, w.findPeer (peerLabel mac i) = some p ∧ peerShown mac (d.px mac i) p.view ∧ (A mac i → addrShown (d.px mac i) p.view)
  onlyLink : ∀ label k, w.findLink label = some k → ∃ l ∈ d.m.links, key label = dec l.idx
  onlyPeer : ∀ label p, w.findPeer label = some p → ∃ mac i, Public d mac i ∧ key label = peerLabel mac i

theorem Held.copied {σ : Type} {d : D} {w : Mirror.W σ} (h : Held A S Mg d w) : Copied d w :=
  ⟨fun l hl => let ⟨k, a, b, c, _⟩ := h.link l hl; ⟨k, a, b, c⟩, fun m i hp => let ⟨p, a, b, _⟩ := h.peer m i hp; ⟨p, a, b⟩, h.onlyLink, h.onlyPeer⟩

theorem held {σ : Type} (H : Hooks σ) (hq : Quiet H) {a : σ} {ms : List Msg} {w : Mirror.W σ} (hr : runMsgs H { app := a } ms = some w) {d : D} (hi : Wifid.Inv d.m)
    (hf : Follows A S Mg d (ms.foldl Known.hear .nothing)) : Held A S Mg d w := by
  obtain ⟨hL, hP⟩ := copy_follows H hq ms a w hr
  refine ⟨?_, ?_, ?_, ?_⟩
  · intro l hl
    obtain ⟨v, h1, h2, h3, h4, h5⟩ := hf.link l.idx (quiet l) (Wifid.vis_link (Wifid.find_of_mem hi.shape.nd hl))
    have := hL (dec l.idx) (dec_ne_nil _)
    rw [key_dec, h1, Option.map_eq_some_iff] at this
    obtain ⟨k, hk, rfl⟩ := this
    exact ⟨k, hk, h2, h3, h4, h5⟩
  · intro mac i hp
    have hv := (public_vis hi mac i).mp hp
    have hc : Canon mac := by
      obtain ⟨l, hl, rfl, p, hp, rfl, _⟩ := hp
      exact (hi.shape.good l hl).canon p hp
    cases e : vis d.m (.peer mac i) with
    | none => exact absurd e hv
    | some x =>
      obtain ⟨v, h1, h2, h3⟩ := hf.peer mac i x hc e
      have := hP (peerLabel mac i)
      rw [key_peer hc, h1, Option.map_eq_some_iff] at this
      obtain ⟨p, hp, rfl⟩ := this
      exact ⟨p, hp, h2, h3⟩
  · intro label k hk
    have hne : label ≠ [] := by
      intro e
      rw [e] at hk
      simp [W.findLink] at hk
    have h1 := hL label hne
    rw [hk] at h1
    obtain ⟨i, hki⟩ := hf.onlyL (key label) (by rw [← h1]; simp)
    cases e : d.m.find i with
    | none =>
      have := hf.nolink i (by simp [vis, e])
      rw [← hki, ← h1] at this
      cases this
    | some l => exact ⟨l, (Wifid.find_idx e).2, by rw [hki, (Wifid.find_idx e).1]⟩
  · intro label p hp
    have h1 := hP label
    rw [hp] at h1
    obtain ⟨m, i, hc, hk⟩ := hf.onlyP (key label) (by rw [← h1]; simp)
    refine ⟨m, i, (public_vis hi m i).mpr ?_, hk⟩
    intro e
    have := hf.nopeer m i hc e
    rw [← hk, ← h1] at this
    cases this

theorem set_scan (d : D) (mac : List Byte) (idx : Nat) (f : PV → PV) (names : List (List Byte)) : (d.set mac idx f names).scan = d.scan := by
  unfold D.set
  split <;> rfl

theorem base_scan {o : Wifid.Opts} {zx : Bool} {d d' : D} {e : Wifid.Op} (h : d.base o zx e = some d') (i : Nat) (hs : d'.scan i = true) : d.scan i = true := by
  unfold D.base at h
  rw [Option.map_eq_some_iff] at h
  obtain ⟨m, _, rfl⟩ := h
  change (d.scan i && managed m i && !isLost i e) = true at hs
  simp only [Bool.and_eq_true] at hs
  exact hs.1.1

theorem scan_mono {o : Wifid.Opts} {zx : Bool} {d d' : D} {e : Op} (h : step o zx d e = some d') (he : ∀ j v, e ≠ .scan j v) (i : Nat) (hs : d'.scan i = true) : d.scan i = true := by
  cases e with
  | base e => exact base_scan h i hs
  | found a pos idx mac running friendly wfd =>
    change d.found o zx a pos idx mac running friendly wfd = some d' at h
    unfold D.found at h
    rw [Option.bind_eq_some_iff] at h
    obtain ⟨d1, h1, h2⟩ := h
    have := base_scan h2 i hs
    have e : ((d1.setFriendly (Mac.format (Mac.scan zx 6 mac)) idx friendly).setWfd (Mac.format (Mac.scan zx 6 mac)) idx wfd).scan = d1.scan := by
      cases friendly <;> cases wfd <;> simp [D.setFriendly, D.setWfd, set_scan]
    rw [e] at this
    exact base_scan h1 i this
  | conn mac idx c =>
    injection h with h
    subst h
    split at hs
    · exact hs
    · rwa [set_scan] at hs
  | addr mac idx iface loc rem =>
    injection h with h
    subst h
    rwa [set_scan] at hs
  | scan j v => exact absurd rfl (he j v)

/-- The conditions of `run_follows` from those of the statements. -/
theorem conditions {o : Wifid.Opts} {zx : Bool} {d : D} {ops : List Op} (hA : ∀ mac i, A mac i → AddrSteady o zx d ops mac i) (hS : ∀ i, S i → StopTold o zx d ops i) :
    ∀ a e b d1 d2, ops = a ++ e :: b → run o zx d a = some d1 → step o zx d1 e = some d2 → steady A d1 e ∧ told S d1 d2 e := by
  intro a e b d1 d2 h1 h2 h3
  refine ⟨?_, ?_⟩
  · unfold steady
    split
    · intro h; exact hA _ _ h a b d1 _ _ _ h1 h2
    · trivial
  · have key : (∀ j v, e ≠ .scan j v) → ∀ i, S i → d2.scan i = d1.scan i := by
      intro he i hSi
      cases x : d1.scan i with
      | true =>
        cases y : d2.scan i with
        | true => rfl
        | false => exact absurd (hS i hSi a e b d1 d2 h1 h2 h3 x y) (he _ _)
      | false =>
        cases y : d2.scan i with
        | false => rfl
        | true => rw [scan_mono h3 he i y] at x; cases x
    unfold told
    split
    · trivial
    · rename_i hne
      exact key hne

theorem run_inv {o : Wifid.Opts} {zx : Bool} {ops : List Op} {d : D} (h : run o zx {} ops = some d) : Wifid.Inv d.m :=
  (run_follows (A := fun _ _ => False) (S := fun _ => False) (Mg := fun _ _ => True) (fun _ => trivial) ops Wifid.inv_init follows_start h
    (conditions (fun _ _ h => h.elim) (fun _ h => h.elim))).1

/-! ### Checking the conditions -/

/-- Is this the word of wpa_supplicant that link `i` stopped? -/
def isStop (i : Nat) : Op → Bool
  | .scan j false => j = i
  | _ => false

/-- Is this a change of the addresses of a peer? -/
def isAddr (mac : List Byte) (i : Nat) : Op → Bool
  | .addr m j _ _ _ => m = mac && j = i
  | _ => false

/-- `StopTold`, checked. -/
def okStop (o : Wifid.Opts) (zx : Bool) (i : Nat) : D → List Op → Bool
  | _, [] => true
  | d, e :: t => match step o zx d e with
    | none => true
    | some d2 => (!d.scan i || d2.scan i || isStop i e) && okStop o zx i d2 t

/-- `AddrSteady`, checked. -/
def okAddr (o : Wifid.Opts) (zx : Bool) (mac : List Byte) (i : Nat) : D → List Op → Bool
  | _, [] => true
  | d, e :: t => (!isAddr mac i e || !(d.px mac i).connected) && match step o zx d e with
    | none => true
    | some d2 => okAddr o zx mac i d2 t

theorem okStop_told {o : Wifid.Opts} {zx : Bool} {i : Nat} (ops : List Op) : ∀ {d : D}, okStop o zx i d ops = true → StopTold o zx d ops i := by
  induction ops with
  | nil => intro d _ a e b d1 d2 h; simp at h
  | cons x t ih =>
    intro d hok a e b d1 d2 h hr hs h1 h2
    rw [okStop] at hok
    cases a with
    | nil =>
      injection h with h3 h4
      subst h3
      cases hr
      rw [hs] at hok
      simp only [h1, h2, Bool.not_true, Bool.false_or, Bool.and_eq_true] at hok
      have := hok.1
      unfold isStop at this
      split at this
      · rename_i j
        rw [show j = i by simpa using this]
      · cases this
    | cons y a =>
      injection h with h3 h4
      subst h3
      simp only [run, Option.bind_eq_some_iff] at hr
      obtain ⟨d', h5, h6⟩ := hr
      rw [h5] at hok
      simp only [Bool.and_eq_true] at hok
      exact ih hok.2 a e b d1 d2 h4 h6 hs h1 h2

theorem okAddr_steady {o : Wifid.Opts} {zx : Bool} {mac : List Byte} {i : Nat} (ops : List Op) : ∀ {d : D}, okAddr o zx mac i d ops = true → AddrSteady o zx d ops mac i := by
  induction ops with
  | nil => intro d _ a b d1 _ _ _ h; simp at h
  | cons x t ih =>
    intro d hok a b d1 iface loc rem h hr
    rw [okAddr] at hok
    simp only [Bool.and_eq_true] at hok
    cases a with
    | nil =>
      injection h with h3 h4
      subst h3
      cases hr
      simpa [isAddr] using hok.1
    | cons y a =>
      injection h with h3 h4
      subst h3
      simp only [run, Option.bind_eq_some_iff] at hr
      obtain ⟨d', h5, h6⟩ := hr
      have h7 := hok.2
      rw [h5] at h7
      exact ih h7 a b d1 iface loc rem h4 h6

end Verif.Daemon
