import Verif.Proof.Client6Set
import Verif.Props.Client6
/-!
# C127: the options chosen by the functions of the client
-/
namespace Verif.Client6
open Verif.C Verif.Dhcp6.Spec Verif.Client6.Spec

theorem chosen_eq (pton : List Byte → Option (List Byte)) (c : Client) (hn : c.iaNa.length = 16) (add : Bool) (want : Option (List Byte)) :
    useAddr pton c add want = chosen pton c add want := by
  have hall : c.iaNa.all (· == 0) = true ↔ c.iaNa = List.replicate 16 0 := by
    rw [List.all_eq_true, List.eq_replicate_iff]
    simp [hn]
  cases add <;> cases want <;> simp only [useAddr, chosen, if_true] <;> try rfl
  by_cases h : c.iaNa = List.replicate 16 0
  · rw [if_pos h, if_pos (hall.mpr h)]
  · rw [if_neg h, if_neg (fun k => h (hall.mp k))]

/-- The timers of a request for an address: those of the caller are only used with an address. -/
def timersOf (a : Option (List Byte)) (t1 t2 : Option Nat) : Nat × Nat :=
  match a with
  | some _ => (t1.getD 0, t2.getD 0)
  | none => (0, 0)

/-- **C127 (one address).** `g_dhcpv6_client_set_ia` never writes outside its arrays. For an IA_NA the
option sent from now on has the number of the association, exactly the chosen address (without
lifetimes) or none, and the client asks for the answer. Part of the claim is false: the timers of
the caller are dropped when there is no address, see `set_ia_forgets_timers`. -/
theorem set_ia_partial (pton : List Byte → Option (List Byte)) (hp : ∀ s a, pton s = some a → a.length = 16)
    (c : Client) (hn : c.iaNa.length = 16) (mac : List Byte) (hm : mac.length = 6) (t1 t2 : Option Nat) (add : Bool)
    (want : Option (List Byte)) :
    ∃ c', setIa pton c mac 3 t1 t2 add want = some (c', 0) ∧ 3 ∈ c'.requests ∧ c'.iaid = iaidOf c mac ∧
      c'.iaNa = (chosen pton c add want).getD c.iaNa ∧
      Adds c c' ⟨3, ia (iaidOf c mac) (timersOf (chosen pton c add want) t1 t2).1 (timersOf (chosen pton c add want) t1 t2).2
        ((chosen pton c add want).toList.map askAddr)⟩ := by
  have hch := chosen_eq pton (setRequest c 3) (by rw [setRequest_iaNa]; exact hn) add want
  have hcc : chosen pton (setRequest c 3) add want = chosen pton c add want := by
    simp only [chosen, setRequest_iaNa]
  have hid : ∀ d : Client, d.iaid = c.iaid → iaidOf d mac = iaidOf c mac := by
    intro d hd; simp only [iaidOf, hd]
  unfold setIa
  rw [if_neg (by decide), if_pos rfl]
  simp only [hch, hcc]
  cases hc : chosen pton c add want with
  | some a =>
    have hl : a.length = 16 := by
      unfold chosen at hc
      split at hc
      · simp at hc
      · exact hp _ _ hc
      · split at hc
        · simp at hc
        · simp at hc; rw [← hc]; exact hn
    simp only [putIaid_ok _ mac hm, hid { setRequest c 3 with iaNa := a } (setRequest_iaid c 3),
      Option.bind_eq_bind, Option.bind_some]
    refine ⟨_, rfl, mem_setRequest c 3, rfl, rfl, ?_⟩
    refine adds_of_sends (c1 := { { setRequest c 3 with iaNa := a } with iaid := iaidOf c mac }) (setRequest_sends c 3) ?_
    have he : be4 (iaidOf c mac) ++ timer t1 ++ timer t2 ++ iaaddr a =
        ia (iaidOf c mac) (timersOf (some a) t1 t2).1 (timersOf (some a) t1 t2).2 ((some a).toList.map askAddr) := by
      simp [ia, timer_eq, timersOf, iaaddr_eq a hl, enc]
    rw [he]
    apply setSend_adds
    rw [← he]
    simp [timer_eq, be4_length, iaaddr, hl]
  | none =>
    simp only [putIaid_ok _ mac hm, hid (setRequest c 3) (setRequest_iaid c 3), Option.bind_eq_bind, Option.bind_some]
    refine ⟨_, rfl, mem_setRequest c 3, rfl, setRequest_iaNa c 3, ?_⟩
    refine adds_of_sends (c1 := { setRequest c 3 with iaid := iaidOf c mac }) (setRequest_sends c 3) ?_
    have he : be4 (iaidOf c mac) ++ [0, 0, 0, 0] ++ [0, 0, 0, 0] =
        ia (iaidOf c mac) (timersOf none t1 t2).1 (timersOf none t1 t2).2 ((none : Option (List Byte)).toList.map askAddr) := by
      have h4 : be4 0 = [0, 0, 0, 0] := by decide
      simp [ia, timersOf, enc, h4]
    rw [he]
    apply setSend_adds
    rw [← he]
    simp [be4_length]

/-- Asking for an address again, for a client without a number. -/
example : (setIa (fun _ => none) { iaNa := List.replicate 15 0 ++ [1], sends := [(3, [0, 3, 0, 0]), (6, [0, 6, 0, 2, 0, 23])] } [1, 2, 3, 4, 5, 6] 3
      (some 10) (some 20) true none).map (fun p => (p.1.sends, p.1.requests, p.1.iaid, p.2)) =
    some ([(3, [0, 3, 0, 40] ++ [3, 4, 5, 6] ++ [0, 0, 0, 10] ++ [0, 0, 0, 20] ++ [0, 5, 0, 24] ++ (List.replicate 15 0 ++ [1]) ++
      List.replicate 8 0), (6, [0, 6, 0, 2, 0, 23])], [3], 0x03040506, 0) := by decide +kernel

/-- **C127 is false for the timers.** A request for any address does not tell the server the timers
the caller has given. -/
theorem set_ia_forgets_timers : ∃ (c c' : Client) (mac : List Byte),
    setIa (fun _ => none) c mac 3 (some 10) (some 20) true none = some (c', 0) ∧
      Adds c c' ⟨3, ia 7 0 0 []⟩ ∧ c'.sends = [(3, [0, 3, 0, 12, 0, 0, 0, 7, 0, 0, 0, 0, 0, 0, 0, 0])] := by
  refine ⟨{ iaid := 7 }, { iaid := 7, requests := [3], sends := [(3, [0, 3, 0, 12, 0, 0, 0, 7, 0, 0, 0, 0, 0, 0, 0, 0])] },
    [1, 2, 3, 4, 5, 6], by decide +kernel, ?_, rfl⟩
  intro os h
  have : os = [] := by
    cases os with
    | nil => rfl
    | cons a t => simp [Holds] at h
  subst this
  unfold Holds
  decide +kernel

/-- **C127 (temporary address).** For an IA_TA the option has the number of the association and nothing
else; with any other code nothing is changed and `-EINVAL` returned. -/
theorem set_ia_ta (pton : List Byte → Option (List Byte)) (c : Client) (mac : List Byte) (hm : mac.length = 6)
    (t1 t2 : Option Nat) (add : Bool) (want : Option (List Byte)) :
    (∃ c', setIa pton c mac 4 t1 t2 add want = some (c', 0) ∧ 4 ∈ c'.requests ∧ c'.iaid = iaidOf c mac ∧
      Adds c c' ⟨4, iata (iaidOf c mac) []⟩) ∧
    (∀ code, code ≠ 3 → code ≠ 4 → setIa pton c mac code t1 t2 add want = some (c, -EINVAL)) := by
  constructor
  · unfold setIa
    rw [if_pos rfl]
    simp only [putIaid_ok _ mac hm, Option.bind_eq_bind, Option.bind_some]
    refine ⟨_, rfl, mem_setRequest _ 4, by unfold setSend; exact setRequest_iaid _ 4, ?_⟩
    refine adds_of_sends (c1 := setRequest { c with iaid := iaidOf c mac } 4) (setRequest_sends _ 4) ?_
    have he : be4 (iaidOf c mac) = iata (iaidOf c mac) [] := by simp [iata, enc]
    rw [he]
    exact setSend_adds _ _ _ (by rw [← he]; simp [be4_length])
  · intro code h3 h4
    simp [setIa, h3, h4]

example : (setIa (fun _ => none) { iaid := 0x01020304 } [1, 2, 3, 4, 5, 6] 4 none none false none).map (·.1.sends) =
    some [(4, [0, 4, 0, 4, 1, 2, 3, 4])] := by decide +kernel

/-- **C127 (several addresses).** `g_dhcpv6_client_set_ias` with at least one and at most 2340 addresses
that are all valid: the option has the number, the timers, and exactly these addresses in order.
Missing: an address that is not valid, see `set_ias_invalid`. -/
theorem set_ias_partial (pton : List Byte → Option (List Byte)) (hp : ∀ s a, pton s = some a → a.length = 16)
    (c : Client) (mac : List Byte) (hm : mac.length = 6) (t1 t2 : Option Nat) (addrs as : List (List Byte))
    (h : addrs.map pton = as.map some) (hne : addrs ≠ []) (hcount : addrs.length ≤ 2340) :
    (∃ c', setIas pton c mac 3 t1 t2 addrs = some (c', 0) ∧ 3 ∈ c'.requests ∧ c'.iaid = iaidOf c mac ∧
      Adds c c' ⟨3, ia (iaidOf c mac) (t1.getD 0) (t2.getD 0) (as.map askAddr)⟩) ∧
    (∃ c', setIas pton c mac 4 t1 t2 addrs = some (c', 0) ∧ 4 ∈ c'.requests ∧ c'.iaid = iaidOf c mac ∧
      Adds c c' ⟨4, iata (iaidOf c mac) (as.map askAddr)⟩) := by
  have hid : ∀ d : Client, d.iaid = c.iaid → iaidOf d mac = iaidOf c mac := by
    intro d hd; simp only [iaidOf, hd]
  have hlen : addrs.length = as.length := by simpa using congrArg List.length h
  have hl16 : ∀ a ∈ as, (askAddr a).data.length = 24 := by
    intro a ha
    have : some a ∈ addrs.map pton := by rw [h]; exact List.mem_map_of_mem ha
    obtain ⟨s, _, hs⟩ := List.mem_map.mp this
    simp [askAddr, be4_length, hp s a hs]
  have henc := enc_map_length askAddr 24 as hl16
  have hz : ∀ k n : Nat, k ≤ n → List.drop k (List.replicate n (0 : Byte)) = List.replicate (n - k) 0 := by
    intro k n _; simp
  constructor
  · unfold setIas
    rw [if_neg (by simpa using hne)]
    simp only [show ¬ ((3 : Nat) = 4) by decide, if_false, if_true, putIaid_ok _ mac hm, hid (setRequest c 3) (setRequest_iaid c 3),
      Option.bind_eq_bind, Option.bind_some]
    rw [wr_some (by simp [be4_length]; omega)]
    simp only [Option.bind_some, List.take_zero, List.nil_append, be4_length, Nat.zero_add]
    rw [hz 4 _ (by omega), wr_some (by simp [be4_length, timer_eq]; omega)]
    simp only [Option.bind_some]
    have hbuf : (be4 (iaidOf c mac) ++ List.replicate (12 + addrs.length * 28 - 4) 0).take 4 ++ (timer t1 ++ timer t2) ++
        (be4 (iaidOf c mac) ++ List.replicate (12 + addrs.length * 28 - 4) 0).drop (4 + (timer t1 ++ timer t2).length) =
        (be4 (iaidOf c mac) ++ be4 (t1.getD 0) ++ be4 (t2.getD 0)) ++ List.replicate (addrs.length * 28) 0 := by
      rw [List.take_left' (be4_length _)]
      have : (4 + (timer t1 ++ timer t2).length) = 12 := rfl
      rw [this, List.drop_append, List.drop_eq_nil_of_le (by simp [be4_length]), be4_length, List.drop_replicate]
      rw [show 12 + addrs.length * 28 - 4 - (12 - 4) = addrs.length * 28 by omega]
      simp [timer_eq]
    rw [hbuf]
    have happ := appendAll_ok pton hp addrs as h (be4 (iaidOf c mac) ++ be4 (t1.getD 0) ++ be4 (t2.getD 0))
    rw [show (be4 (iaidOf c mac) ++ be4 (t1.getD 0) ++ be4 (t2.getD 0)).length = 12 from rfl] at happ
    rw [happ]
    simp only [Option.bind_some]
    refine ⟨_, rfl, mem_setRequest c 3, rfl, ?_⟩
    refine adds_of_sends (c1 := { setRequest c 3 with iaid := iaidOf c mac }) (setRequest_sends c 3) ?_
    exact setSend_adds _ _ _ (by simp [be4_length, henc]; omega)
  · unfold setIas
    rw [if_neg (by simpa using hne)]
    simp only [if_true, putIaid_ok _ mac hm, hid (setRequest c 4) (setRequest_iaid c 4),
      Option.bind_eq_bind, Option.bind_some]
    rw [wr_some (by simp [be4_length])]
    simp only [Option.bind_some, List.take_zero, List.nil_append, be4_length, Nat.zero_add]
    rw [hz 4 _ (by omega), show 4 + addrs.length * 28 - 4 = addrs.length * 28 by omega]
    have happ := appendAll_ok pton hp addrs as h (be4 (iaidOf c mac))
    rw [be4_length] at happ
    rw [happ]
    simp only [Option.bind_some]
    refine ⟨_, rfl, mem_setRequest c 4, rfl, ?_⟩
    refine adds_of_sends (c1 := { setRequest c 4 with iaid := iaidOf c mac }) (setRequest_sends c 4) ?_
    exact setSend_adds _ _ _ (by simp [be4_length, henc]; omega)

/-- A reader of IPv6 addresses for the examples: "a" and "b" are addresses. -/
def exPton (s : List Byte) : Option (List Byte) :=
  if s = bytes "a" then some (List.replicate 16 0xa) else if s = bytes "b" then some (List.replicate 16 0xb) else none

example : (setIas exPton { iaid := 5 } [1, 2, 3, 4, 5, 6] 4 none none [bytes "a", bytes "b"]).map (·.1.sends) =
    some [(4, [0, 4, 0, 60, 0, 0, 0, 5] ++ [0, 5, 0, 24] ++ List.replicate 16 0xa ++ List.replicate 8 0 ++
      [0, 5, 0, 24] ++ List.replicate 16 0xb ++ List.replicate 8 0)] := by decide +kernel

/-- **C127 is false for lists with an invalid address.** The call succeeds; the addresses behind the
invalid one are not sent, and in their place there are zeros, which read as seven options each of a
code that does not exist. -/
theorem set_ias_invalid : (setIas exPton { iaid := 5 } [1, 2, 3, 4, 5, 6] 4 none none [bytes "a", bytes "x", bytes "b"]).map (fun p => (p.1.sends, p.2)) =
    some ([(4, (⟨4, iata 5 (askAddr (List.replicate 16 0xa) :: List.replicate 14 ⟨0, []⟩)⟩ : Opt).bytes)], 0) := by
  decide +kernel

/-- **C127 (prefixes).** `g_dhcpv6_client_set_pd` stays inside its array. Up to 49 prefixes are all asked
for, in order, with the timers; with more nothing is changed but the list of wishes, and `-EINVAL`
is returned. -/
theorem set_pd (c : Client) (t1 t2 : Option Nat) (ps : List (Byte × List Byte)) (hp : ∀ p ∈ ps, p.2.length = 16) :
    (ps.length ≤ 49 → ∃ c', setPd c t1 t2 ps = some (c', 0) ∧ 25 ∈ c'.requests ∧
      Adds c c' ⟨25, ia c.iaid (t1.getD 0) (t2.getD 0) (ps.map askPrefix)⟩) ∧
    (50 ≤ ps.length → ∃ c', setPd c t1 t2 ps = some (c', -EINVAL) ∧ c'.sends = c.sends) := by
  have hd := putPrefixes_ok ps hp ((be4 c.iaid ++ be4 (t1.getD 0) ++ be4 (t2.getD 0)) ++ List.replicate 1440 0)
    (be4 c.iaid ++ be4 (t1.getD 0) ++ be4 (t2.getD 0))
    (by rw [List.length_append, List.length_replicate]; rfl) ⟨_, rfl⟩
  rw [show (be4 c.iaid ++ be4 (t1.getD 0) ++ be4 (t2.getD 0)).length = 12 from rfl] at hd
  have hw : wr (List.replicate 1452 (0 : Byte)) 0 (put32 (setRequest c 25).iaid ++ timer t1 ++ timer t2) =
      some ((be4 c.iaid ++ be4 (t1.getD 0) ++ be4 (t2.getD 0)) ++ List.replicate 1440 0) := by
    rw [setRequest_iaid, wr_some (by rw [List.length_replicate]; show 0 + 12 ≤ 1452; omega)]
    rw [List.take_zero, List.nil_append, show 0 + (put32 c.iaid ++ timer t1 ++ timer t2).length = 12 from rfl, List.drop_replicate]
    rfl
  constructor
  · intro hl
    obtain ⟨b', e, hbl, r, hb'⟩ := hd.1 (by omega)
    have henc : (enc (ps.map askPrefix)).length = ps.length * 29 :=
      enc_map_length askPrefix 25 ps (fun p h => by have := hp p h; simp [askPrefix, be4_length] at this ⊢; omega)
    unfold setPd
    simp only [hw, e, Option.bind_eq_bind, Option.bind_some]
    rw [rd_some (by omega)]
    simp only [Option.bind_some]
    refine ⟨_, rfl, mem_setRequest c 25, ?_⟩
    refine adds_of_sends (c1 := setRequest c 25) (setRequest_sends c 25) ?_
    have he : (b'.drop 0).take (12 + ps.length * 29) = ia c.iaid (t1.getD 0) (t2.getD 0) (ps.map askPrefix) := by
      rw [List.drop_zero, hb']
      exact List.take_left' (by simp [be4_length, henc]; omega)
    rw [he]
    apply setSend_adds
    simp [ia, be4_length, henc]; omega
  · intro hl
    have e := hd.2 (by intro h; subst h; simp at hl) (by omega)
    unfold setPd
    simp only [hw, e, Option.bind_eq_bind, Option.bind_some]
    exact ⟨_, rfl, setRequest_sends c 25⟩

example : (setPd { iaid := 5 } (some 1) none [(64, List.replicate 16 7)]).map (fun p => (p.1.sends, p.2)) =
    some ([(25, [0, 25, 0, 41] ++ [0, 0, 0, 5, 0, 0, 0, 1, 0, 0, 0, 0] ++ [0, 26, 0, 25] ++ List.replicate 8 0 ++ [64] ++
      List.replicate 16 7)], 0) := by decide +kernel

/-- **C127 (option request).** `g_dhcpv6_client_set_oro` with up to 32767 codes sends exactly these codes. -/
theorem set_oro (c : Client) (codes : List Nat) (hc : ∀ n ∈ codes, n < 65536) (hl : codes.length ≤ 32767) :
    Adds c (setOro c codes) ⟨6, codes.flatMap be2⟩ := by
  have he : (codes.flatMap fun n => put16 (n % 65536)) = codes.flatMap be2 := by
    induction codes with
    | nil => rfl
    | cons n t ih =>
      have hn := hc n (by simp)
      simp only [List.flatMap_cons, Nat.mod_eq_of_lt hn, put16_eq n hn]
      rw [ih (fun m hm => hc m (by simp [hm])) (by simp at hl; omega)]
  unfold setOro
  rw [he]
  apply setSend_adds
  have : (codes.flatMap be2).length = 2 * codes.length := by
    clear hc hl he
    induction codes with
    | nil => rfl
    | cons n t ih => simp only [List.flatMap_cons, List.length_append, ih, List.length_cons]; simp [be2]; omega
  rw [this]; omega

example : (setOro {} [23, 0x1234]).sends = [(6, [0, 6, 0, 4, 0, 23, 0x12, 0x34])] := by decide +kernel

/-- **C127 (taking back).** A cleared option is not sent any more, the others still are. -/
theorem clear_send (c : Client) (code : Nat) (os : List Opt) (h : Holds c os) :
    Holds (clearSend c code) (os.filter fun o => o.code ≠ code) := by
  unfold Holds at *
  simp only [clearSend, h]
  rw [List.filter_map]; rfl

example : (clearSend { sends := [(6, [0, 6, 0, 0]), (3, [0, 3, 0, 0])] } 6).sends = [(3, [0, 3, 0, 0])] := by decide

/-- **C127 (identity).** A client id says which interface it is from: two ids are only equal if kind,
hardware type and MAC address are. The one without time is the same at any time. -/
theorem duid_identifies (k k' ty ty' : Nat) (mac mac' : List Byte) (now now' : Int) (d : List Byte)
    (hm : mac.length = 6) (hm' : mac'.length = 6) (ht : ty < 256) (ht' : ty' < 256)
    (h : createDuid k mac ty now = some d) (h' : createDuid k' mac' ty' now' = some d) :
    k = k' ∧ mac = mac' ∧ ty = ty' ∧ createDuid 3 mac ty now = createDuid 3 mac ty now' := by
  have hty : ∀ a b : Nat, a < 256 → b < 256 → a.toUInt8 = b.toUInt8 → a = b := by
    intro a b ha hb h
    have := congrArg UInt8.toNat h
    simp at this; omega
  have l1 : mac.take 6 = mac := List.take_of_length_le (by omega)
  have l2 : mac'.take 6 = mac' := List.take_of_length_le (by omega)
  unfold createDuid at h h'
  rw [l1] at h
  rw [l2] at h'
  by_cases h1 : k = 1 <;> by_cases h2 : k' = 1
  · rw [if_pos h1] at h; rw [if_pos h2] at h'
    simp only [Option.some.injEq] at h h'
    rw [← h'] at h
    simp only [put32, List.cons_append, List.nil_append, List.cons.injEq, true_and] at h
    exact ⟨by omega, h.2.2.2.2.2, hty _ _ ht ht' h.1, rfl⟩
  · rw [if_pos h1] at h; rw [if_neg h2] at h'
    split at h'
    · simp only [Option.some.injEq] at h h'
      rw [← h'] at h
      simp at h
    · simp at h'
  · rw [if_neg h1] at h; rw [if_pos h2] at h'
    split at h
    · simp only [Option.some.injEq] at h h'
      rw [← h'] at h
      simp at h
    · simp at h
  · rw [if_neg h1] at h; rw [if_neg h2] at h'
    split at h
    · split at h'
      · simp only [Option.some.injEq] at h h'
        rw [← h'] at h
        simp only [List.cons_append, List.nil_append, List.cons.injEq, true_and] at h
        exact ⟨by omega, h.2, hty _ _ ht ht' h.1, rfl⟩
      · simp at h'
    · simp at h

example : createDuid 1 [2, 0, 0, 0, 0, 1] 1 946684801 = some [0, 1, 0, 1, 0, 0, 0, 1, 2, 0, 0, 0, 0, 1] ∧
    createDuid 3 [2, 0, 0, 0, 0, 1] 1 946684801 = some [0, 3, 0, 1, 2, 0, 0, 0, 0, 1] := by decide +kernel

end Verif.Client6
