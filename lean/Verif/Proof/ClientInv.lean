import Verif.Proof.ClientRun
import Verif.Props.OptValue
/-!
# The invariant of a run of the DHCP client
-/
namespace Verif.Client
open Verif.C Verif.Options

theorem running_snoc (l : Spec.Log) (op : Op) (o : List Out) : Spec.running (l ++ [(op, o)]) =
    match op with
    | .start _ => true
    | .stop => false
    | _ => Spec.running l := by
  unfold Spec.running
  rw [List.foldl_append]
  rfl

theorem pending_snoc (l : Spec.Log) (op : Op) (o : List Out) : Spec.pending (l ++ [(op, o)]) =
    if op = .stop then none else o.foldl Spec.pendOut (Spec.pending l) := by
  unfold Spec.pending
  rw [List.foldl_append]
  rfl

theorem holding_snoc (l : Spec.Log) (op : Op) (o : List Out) : Spec.holding (l ++ [(op, o)]) =
    if op = .stop then false else o.foldl Spec.holdOut (Spec.holding l) := by
  unfold Spec.holding
  rw [List.foldl_append]
  rfl

theorem lastOut_snoc (l : Spec.Log) (op : Op) (o : List Out) : Spec.lastOut (l ++ [(op, o)]) =
    (o.getLast?).or (Spec.lastOut l) := by
  unfold Spec.lastOut
  simp [List.getLast?_append]

theorem rd_drop {b d : List Byte} {i n : Nat} (h : rd b i n = some d) : (b.drop i).take n = d := by
  unfold rd at h
  split at h
  · exact Option.some.inj h
  · cases h

theorem owner_mine {c : Cl} {pkt : List Byte} (h : c.owner pkt = true) : Spec.Mine c.mac c.xid pkt := by
  unfold Cl.owner at h
  simp only [Bool.and_eq_true, decide_eq_true_eq] at h
  obtain ⟨⟨h1, h2⟩, h3⟩ := h
  exact ⟨rd_drop (by simpa using h1), by simpa using h2, rd_drop (by simpa using h3)⟩

theorem getBe_beVal {h : Wire.Host} {b : List Byte} {i v : Nat} (hv : Wire.getBe h 4 b i = some v) :
    v = Wire.Spec.beVal ((b.drop i).take 4) := by
  rw [Wire.getBe_eq] at hv
  cases hr : rd b i 4 with
  | none => rw [hr] at hv; cases hv
  | some d =>
    rw [hr] at hv
    have hl := length_of_rd hr
    rw [rd_drop hr]
    cases hv
    match d, hl with
    | [a, b, c, e], _ => simp [Wire.leVal, Wire.Spec.beVal]; omega

theorem type_of {pkt : List Byte} {re : Int} {i : Nat} {t : Byte}
    (hp : getOption pkt (re % 65536).toNat 0x35 2000 = .ptr i) (ht : pkt[i]? = some t) : Spec.HasType pkt re t := by
  intro os fs ss hL
  have hk := OptValue.lookup_legal hL 53
  cases hv : Options.Spec.value 53 (Options.Spec.all os fs ss) with
  | none =>
    rw [hv] at hk
    have hk : getOption pkt (Spec.len re) 53 2000 = .null := hk
    unfold Spec.len at hk
    rw [hp] at hk
    cases hk
  | some d =>
    rw [hv] at hk
    obtain ⟨j, n, rest, hg, hi, hn, hnl, hin, hd⟩ := hk
    unfold Spec.len at hg
    rw [hp] at hg
    cases hg
    refine ⟨d, rfl, ?_⟩
    intro hne
    have : pkt[i]? = (pkt.drop i)[0]? := by simp
    rw [this, hd] at ht
    cases d with
    | nil => exact absurd rfl hne
    | cons a r => simpa using ht

theorem server_of {h : Wire.Host} {pkt : List Byte} {re : Int} {s : Nat}
    (hp : ptrBe32 h pkt (getOption pkt (re % 65536).toNat 0x36 2000) = some s) : Spec.HasServer pkt re s := by
  intro os fs ss hL
  have hk := OptValue.lookup_legal hL 54
  cases hv : Options.Spec.value 54 (Options.Spec.all os fs ss) with
  | none =>
    rw [hv] at hk
    have hk : getOption pkt (Spec.len re) 54 2000 = .null := hk
    unfold Spec.len at hk
    rw [hk] at hp
    cases hp
  | some d =>
    rw [hv] at hk
    obtain ⟨j, n, rest, hg, hi, hn, hnl, hin, hd⟩ := hk
    unfold Spec.len at hg
    rw [hg] at hp
    refine ⟨d, rfl, ?_⟩
    intro h4
    have := getBe_beVal hp
    rw [this, hd, List.take_append_of_le_length h4]

/-- What holds of a client and the log of its run. -/
structure Inv (mac : List Byte) (codes : List Nat) (c : Cl) (l : Spec.Log) : Prop where
  good : Good c
  idle : Spec.running l = false → IsIdle c
  macOk : c.mac = mac
  codesOk : c.codes = codes
  pend : c.state = .rebooting ∨ c.state = .requesting ∨ c.state = .renewing ∨ c.state = .rebinding →
    Spec.pending l = some c.xid
  req : c.state = .requesting → Spec.Offered mac l c.xid c.requestedIp c.serverIp
  held : c.state = .bound ∨ c.state = .renewing ∨ c.state = .rebinding → Spec.holding l = true

theorem Offered.mono {mac : List Byte} {l : Spec.Log} {x : List Byte} {a s : Nat} (h : Spec.Offered mac l x a s)
    (ev : Op × List Out) : Spec.Offered mac (l ++ [ev]) x a s := by
  obtain ⟨pkt, re, o, hm, h⟩ := h
  exact ⟨pkt, re, o, by simp [hm], h⟩

theorem stop_idle (c : Cl) (hg : Good c) : IsIdle c.stop.1 ∧ c.stop.1.state = .released ∧ Same c c.stop.1 := by
  unfold Cl.stop
  dsimp only
  rw [switch_none c hg.watch, removeTimeouts_cover _ (show Cover ({ c with mode := .none, watch := false } : Cl) from hg.shape.cover)]
  exact ⟨⟨Or.inr rfl, rfl, rfl, rfl, rfl⟩, rfl, ⟨rfl, rfl⟩⟩

/-- What `g_dhcp_client_start` leaves behind. -/
theorem Started.inv {e : Env} {a : Option Nat} {c c' : Cl} {o : List Out} (h : Started e a c c' o) (hs : c.retry ≠ 0 → c.state = .initSelecting)
    (p : Option (List Byte)) :
    Same c c' ∧ (c'.state = .initSelecting ∨ c'.state = .rebooting ∧ o.foldl Spec.pendOut p = some c'.xid) := by
  cases h with
  | quit hr => exact ⟨⟨rfl, rfl⟩, Or.inl (hs (by omega))⟩
  | fail ho hs hl hm hw hi _ _ hsm => exact ⟨hsm, Or.inl hs⟩
  | reboot hs hl h0 hm hw hi _ hsm ha => exact ⟨hsm, Or.inr ⟨hs, rfl⟩⟩
  | disc hs hl h0 hm hw hi _ _ _ hsm => exact ⟨hsm, Or.inl hs⟩

theorem inv_step {mac : List Byte} {codes : List Nat} {c c' : Cl} {l : Spec.Log} {op : Op} {e : Env} {o : List Out}
    (hi : Inv mac codes c l) (ht : Trans c op e c' o) (hg' : Good c') (hpol : ∀ a, op = .start a → Spec.running l = false) :
    Inv mac codes c' (l ++ [(op, o)]) := by
  obtain ⟨hg, hidle, hmac, hcodes, hpend, hreq, hheld⟩ := hi
  have nrun : ∀ {P : Prop}, op ≠ .stop → (Spec.running l = false → ¬ IsIdle c) →
      Spec.running (l ++ [(op, o)]) = false → P := by
    intro P hop hni hr
    rw [running_snoc] at hr
    split at hr
    · cases hr
    · exact absurd rfl hop
    · exact absurd (hidle hr) (hni hr)
  -- the last part, for a client on which `start` was called
  have fresh : ∀ c1 : Cl, op ≠ .stop → Same c c1 → (∃ a o1 o2, o = o1 ++ o2 ∧ (o2 = [] ∨ o2 = [.lost]) ∧ Started e a c1 c' o1) →
      (c1.retry ≠ 0 → c1.state = .initSelecting) → (Spec.running l = false → ¬ IsIdle c ∨ ∃ a, op = .start a) →
      Inv mac codes c' (l ++ [(op, o)]) := by
    intro c1 hop hsm hst hs hni
    obtain ⟨a, o1, o2, ho, ho2, hst⟩ := hst
    obtain ⟨s1, s2⟩ := hst.inv hs (Spec.pending l)
    refine ⟨hg', ?_, s1.1.trans (hsm.1.trans hmac), s1.2.trans (hsm.2.trans hcodes), ?_, ?_, ?_⟩
    · intro hr
      rw [running_snoc] at hr
      split at hr
      · cases hr
      · exact absurd rfl hop
      · rename_i hns _
        rcases hni hr with h | ⟨a, h⟩
        · exact absurd (hidle hr) h
        · exact absurd h (hns a)
    · intro h
      rcases s2 with s2 | ⟨s2, s3⟩
      · rw [s2] at h; simp at h
      · rw [pending_snoc, if_neg hop, ho, List.foldl_append, s3]
        rcases ho2 with rfl | rfl <;> rfl
    · intro h
      rcases s2 with s2 | ⟨s2, s3⟩ <;> rw [s2] at h <;> cases h
    · intro h
      rcases s2 with s2 | ⟨s2, s3⟩ <;> rw [s2] at h <;> simp at h
  cases ht with
  | skip w hop hw =>
    have hop' : op ≠ .stop := by rcases hop with rfl | ⟨_, _, rfl⟩ <;> simp
    refine ⟨hg', ?_, hmac, hcodes, ?_, ?_, ?_⟩
    · intro hr
      have : Spec.running l = false := by
        rw [running_snoc] at hr
        rcases hop with rfl | ⟨_, _, rfl⟩ <;> exact hr
      obtain ⟨a, b, d, f, g⟩ := hidle this
      refine ⟨a, b, d, ?_, g⟩
      cases w
      · rfl
      · rw [hw rfl] at f; cases f
    · intro h; rw [pending_snoc, if_neg hop']; exact hpend h
    · intro h; exact Offered.mono (hreq h) _
    · intro h; rw [holding_snoc, if_neg hop']; exact hheld h
  | begun h =>
    exact fresh c (by simp) ⟨rfl, rfl⟩ ⟨_, o, [], by simp, Or.inl rfl, h⟩
      (fun h0 => absurd (hidle (hpol _ rfl)).retry h0) (fun _ => Or.inr ⟨_, rfl⟩)
  | stopped =>
    obtain ⟨h1, h2, h3⟩ := stop_idle c hg
    refine ⟨hg', fun _ => h1, h3.1.trans hmac, h3.2.trans hcodes, ?_, ?_, ?_⟩ <;> intro h <;> rw [h2] at h <;> simp at h
  | retried h1 h =>
    rename_i id a c1
    refine fresh c1 (by simp) ?_ ⟨_, o, [], by simp, Or.inl rfl, h⟩ ?_ ?_
    · cases h1 with
      | discover => exact ⟨rfl, rfl⟩
      | reboot => exact ⟨rfl, rfl⟩
      | restart _ _ _ _ _ _ _ _ _ hsm _ => exact hsm
    · intro _
      cases h1 with
      | discover hs => exact hs
      | reboot => rfl
      | restart _ _ _ _ hst => exact hst
    · intro _
      left
      intro hd
      have := hd.live
      cases h1 with
      | discover hs hl => rw [hl] at this; cases this
      | reboot hs hl => rw [hl] at this; cases this
      | restart hs hl => rw [hl] at this; cases this
  | expired hs hk hr hsm hlv h =>
    rename_i id a c1 o
    exact fresh c1 (by simp) hsm ⟨_, o, [.lost], rfl, Or.inr rfl, h⟩ (fun h0 => absurd hr h0)
      (fun _ => Or.inl (fun hd => by rw [hd.live] at hk; cases hk))
  | asked hs hl hr hs' hl' hr' hx hq hv hsm hk =>
    refine ⟨hg', nrun (by simp) (fun _ hd => by have := hd.live; rw [hl] at this; cases this), hsm.1.trans hmac, hsm.2.trans hcodes, ?_, ?_, ?_⟩
    · intro _; rw [pending_snoc, if_neg (by simp), hx]; rfl
    · intro _; rw [hx, hq, hv]; exact Offered.mono (hreq hs) _
    · intro h; rw [hs'] at h; simp at h
  | unanswered hs hl hr =>
    refine ⟨hg', nrun (by simp) (fun _ hd => by have := hd.live; rw [hl] at this; cases this), hmac, hcodes, ?_, ?_, ?_⟩
    · intro _; rw [pending_snoc, if_neg (by simp)]; exact hpend (Or.inr (Or.inl hs))
    · intro _; exact Offered.mono (hreq hs) _
    · intro h; dsimp only at h; rw [hs] at h; simp at h
  | renewed hs hk hs' hx hq hv hsm hl' hrk =>
    refine ⟨hg', nrun (by simp) (fun _ hd => by rw [hd.live] at hk; simp at hk), hsm.1.trans hmac, hsm.2.trans hcodes, ?_, ?_, ?_⟩
    · intro _; rw [pending_snoc, if_neg (by simp), hx]; rfl
    · intro h; rw [hs'] at h; cases h
    · intro _
      rw [holding_snoc, if_neg (by simp)]
      have : Spec.holding l = true := hheld (by rcases hs with h | h <;> simp [h])
      rw [this]; rfl
  | rebound hs hk hs' hx hq hv hsm hl' hrk =>
    refine ⟨hg', nrun (by simp) (fun _ hd => by rw [hd.live] at hk; simp at hk), hsm.1.trans hmac, hsm.2.trans hcodes, ?_, ?_, ?_⟩
    · intro _; rw [pending_snoc, if_neg (by simp), hx]; rfl
    · intro h; rw [hs'] at h; cases h
    · intro _
      rw [holding_snoc, if_neg (by simp)]
      have : Spec.holding l = true := hheld (by rcases hs with h | h | h <;> simp [h])
      rw [this]; rfl
  | offered hs hm hre ho hty hi hsrv ha hs' hl' hr' hx hq hv hsm =>
    rename_i pkt re i a srv
    refine ⟨hg', nrun (by simp) (fun _ hd => by rw [hd.mode] at hm; cases hm), hsm.1.trans hmac, hsm.2.trans hcodes, ?_, ?_, ?_⟩
    · intro _; rw [pending_snoc, if_neg (by simp), hx]; rfl
    · intro _
      rw [hx, hq, hv]
      refine ⟨pkt, re, _, List.mem_append_right _ (List.mem_singleton.2 rfl), hre, ?_, type_of hty hi, getBe_beVal ha, server_of hsrv⟩
      rw [← hmac]; exact owner_mine ho
    · intro h; rw [hs'] at h; simp at h
  | acked hs hm hre ho hty hi ha hlt hvals hs' has hx hq hsm =>
    refine ⟨hg', nrun (by simp) (fun _ hd => by rw [hd.mode] at hm; cases hm), hsm.1.trans hmac, hsm.2.trans hcodes, ?_, ?_, ?_⟩
    · intro h; rw [hs'] at h; simp at h
    · intro h; rw [hs'] at h; cases h
    · intro _; rw [holding_snoc, if_neg (by simp)]; rfl
  | refused hs hm hre ho hty hi hs' hl' hx hk hq hv hsm =>
    refine ⟨hg', nrun (by simp) (fun _ hd => by rw [hd.mode] at hm; cases hm), hsm.1.trans hmac, hsm.2.trans hcodes, ?_, ?_, ?_⟩
    · intro h; rw [hs'] at h; rw [pending_snoc, if_neg (by simp), hx]; exact hpend h
    · intro h; rw [hs'] at h; rw [hx, hq, hv]; exact Offered.mono (hreq h) _
    · intro h; rw [hs'] at h; rw [holding_snoc, if_neg (by simp)]; exact hheld h

theorem new_idle (mac : List Byte) (codes : List Nat) : IsIdle (new mac codes) :=
  ⟨Or.inl rfl, rfl, rfl, rfl, rfl⟩

theorem reach_inv {A : Op → Env → Prop} {mac : List Byte} {codes : List Nat} {c : Cl} {l : Spec.Log}
    (h : Spec.Reach A mac codes c l) : Inv mac codes c l := by
  induction h with
  | init =>
    refine ⟨⟨.idle (Or.inl rfl) rfl rfl rfl rfl, ⟨by show 0 < 1; decide, by show 0 < 1; decide, by show 0 < 1; decide, by show 0 < 1; decide⟩, by simp [new]⟩,
      fun _ => new_idle mac codes, rfl, rfl, ?_, ?_, ?_⟩ <;> intro h <;> simp [new] at h
  | step r hpol _ hs ih =>
    obtain ⟨ht, hg⟩ := step_case ih.good (fun a h => ih.idle (hpol a h)) hs
    exact inv_step ih ht hg hpol

/-- Every event of a reachable client. -/
theorem reach_step {A : Op → Env → Prop} {mac : List Byte} {codes : List Nat} {c c' : Cl} {l : Spec.Log} {op : Op} {e : Env}
    {o : List Out} (h : Spec.Reach A mac codes c l) (hpol : ∀ a, op = .start a → Spec.running l = false)
    (hs : c.step op e = some (c', o)) : Trans c op e c' o ∧ Good c' :=
  step_case (reach_inv h).good (fun a h' => (reach_inv h).idle (hpol a h')) hs

theorem started_rank {e : Env} {a : Option Nat} {c c' : Cl} {o : List Out} (h : Started e a c c' o) (hl : c.live = [])
    (ho : e.open2 = true) : rank c' ≤ 256 ∧ (c.retry = 0 → rank c' ≤ 7) ∧ (c.retry = 0 → a = none → rank c' ≤ 6) ∧
      (a = none → c.retry < 256 → rank c' = 0 ∧ c.retry = 6 ∨
        c.retry ≠ 6 ∧ rank c' = if c.retry ≤ 5 then 6 - c.retry else 262 - c.retry) := by
  cases h with
  | quit hr => simp [rank, hl, hr]
  | fail ho' => rw [ho] at ho'; cases ho'
  | reboot hs hl' h0 hm hw hi _ hsm ha =>
    have : rank c' = 7 := by simp [rank, hl']
    rw [this, ha]
    simp
  | disc hs hl' h0 hm hw hi hr hr6 _ hsm =>
    have : rank c' = if c.retry % 256 ≤ 5 then 6 - c.retry % 256 else 262 - c.retry % 256 := by simp [rank, hl', hr]
    rw [this]
    refine ⟨by split <;> omega, fun h => by rw [h]; decide, fun h _ => by rw [h]; decide, fun _ h => Or.inr ⟨hr6, ?_⟩⟩
    rw [Nat.mod_eq_of_lt h]

theorem retried_live {c c1 : Cl} {id : Nat} {a : Option Nat} (h : Retried c id a c1) : c1.live = [] := by
  cases h with
  | discover => rfl
  | reboot => rfl
  | restart _ _ _ _ _ hlv => exact hlv

/-- A timer that fires while nothing else happens. -/
theorem rank_fire {c c' : Cl} {id : Nat} {e : Env} {o : List Out} (hg : Good c) (ht : Trans c (.fire id) e c' o)
    (ho : e.open2 = true) : rank c' < rank c := by
  cases ht with
  | skip w hop => rcases hop with h | ⟨_, _, h⟩ <;> cases h
  | retried h1 h =>
    have hr := started_rank h (retried_live h1) ho
    cases h1 with
    | discover hs hl =>
      have hc : rank c = if c.retry % 256 ≤ 5 then 6 - c.retry % 256 else 262 - c.retry % 256 := by simp [rank, hl]
      have h4 := hr.2.2.2 rfl (Nat.mod_lt _ (by decide))
      rw [hc]
      dsimp only at h4
      rcases h4 with ⟨h4, h5⟩ | ⟨h4, h5⟩
      · rw [h4]; split <;> omega
      · rw [h5]; split <;> split <;> omega
    | reboot hs hl =>
      have hc : rank c = 7 := by simp [rank, hl]
      have := hr.2.2.1 rfl rfl
      omega
    | restart hs hl =>
      have hc : rank c = 264 := by simp [rank, hl]
      have := hr.1
      omega
  | expired hs hk hr hsm hlv h =>
    have h1 := (started_rank h hlv ho).1
    have : 8589934592 ≤ rank c := by
      have := hg.shape
      cases this with
      | idle hs hl => rw [hl] at hk; cases hk
      | quit hs hl => rw [hl] at hk; cases hk
      | disc hs hl => rw [hl] at hk; simp at hk
      | reboot hs hl => rw [hl] at hk; simp at hk
      | req hs hl => rw [hl] at hk; simp at hk
      | nak hs hl => rw [hl] at hk; simp at hk
      | bound hs hl => simp [rank, hl]
      | renew hs hl => rcases hl with hl | hl <;> simp [rank, hl] <;> omega
      | rebind hs hl => rcases hl with hl | hl <;> simp [rank, hl] <;> omega
    omega
  | asked hs hl hr hs' hl' hr' =>
    have h1 : rank c = 3 - c.retry := by simp [rank, hl]
    have h2 : rank c' = 3 - c'.retry := by simp [rank, hl']
    omega
  | unanswered hs hl hr =>
    have h1 : rank c = 3 - c.retry := by simp [rank, hl]
    have h2 : rank ({ c with live := [], retry := 3 } : Cl) = 0 := by simp [rank]
    omega
  | renewed _ _ _ _ _ _ _ _ hrk => exact hrk
  | rebound _ _ _ _ _ _ _ _ hrk => exact hrk

end Verif.Client
