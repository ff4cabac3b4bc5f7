import Verif.Proof.Client6Send
/-!
# Helper lemmas: choosing DHCPv6 options
-/
namespace Verif.Client6
open Verif.C Verif.Dhcp6.Spec Verif.Client6.Spec

theorem setSend_adds (c : Client) (code : Nat) (v : List Byte) (hl : v.length < 65536) :
    Adds c (setSend c code v) ⟨code, v⟩ := by
  intro os h
  unfold Holds at *
  have ha : alloc code v = (⟨code, v⟩ : Opt).bytes := by
    rw [alloc, bytes_eq, Nat.mod_eq_of_lt hl, List.take_length]
  have hf : List.filter (fun e : Nat × List Byte => decide (e.1 ≠ code)) (os.map fun o => (o.code, o.bytes)) =
      (os.filter fun x => decide (x.code ≠ code)).map fun o => (o.code, o.bytes) := by
    rw [List.filter_map]; rfl
  simp only [setSend, h, ha, List.map_cons]
  rw [hf]

theorem adds_of_sends {c c1 c' : Client} {o : Opt} (h : c1.sends = c.sends) (ha : Adds c1 c' o) : Adds c c' o := by
  intro os ho; exact ha os (by unfold Holds at *; rw [h, ho])

theorem setRequest_sends (c : Client) (n : Nat) : (setRequest c n).sends = c.sends := by
  unfold setRequest; split <;> rfl

theorem setRequest_iaid (c : Client) (n : Nat) : (setRequest c n).iaid = c.iaid := by
  unfold setRequest; split <;> rfl

theorem setRequest_iaNa (c : Client) (n : Nat) : (setRequest c n).iaNa = c.iaNa := by
  unfold setRequest; split <;> rfl

theorem mem_setRequest (c : Client) (n : Nat) : n ∈ (setRequest c n).requests := by
  unfold setRequest; split
  · assumption
  · simp

theorem putIaid_ok (c : Client) (mac : List Byte) (hm : mac.length = 6) :
    putIaid c mac = some ({ c with iaid := iaidOf c mac }, be4 (iaidOf c mac)) := by
  unfold putIaid iaidOf
  by_cases h : c.iaid = 0
  · rw [if_pos h, if_neg (by simpa using h)]
    match mac, hm with
    | [a, b, x, y, z, w], _ =>
      have := x.toNat_lt; have := y.toNat_lt; have := z.toNat_lt; have := w.toNat_lt
      simp only [rd, List.length_cons, List.length_nil, List.drop_succ_cons, List.drop_zero, List.take_succ_cons, List.take_zero,
        be32, List.getElem?_cons_zero, List.getElem?_cons_succ, List.foldl_cons, List.foldl_nil]
      rw [if_pos (by omega)]
      change some ({ c with iaid := x.toNat * 16777216 + y.toNat * 65536 + z.toNat * 256 + w.toNat }, [x, y, z, w]) = _
      have e : x.toNat * 16777216 + y.toNat * 65536 + z.toNat * 256 + w.toNat =
          (((0 * 256 + x.toNat) * 256 + y.toNat) * 256 + z.toNat) * 256 + w.toNat := by omega
      rw [e]
      refine congrArg some (Prod.ext rfl ?_)
      simp only [be4, be3, be2, List.cons.injEq, and_true]
      refine ⟨?_, ?_, ?_, ?_⟩ <;> apply UInt8.toNat_inj.mp <;> simp only [Nat.toUInt8_eq, UInt8.toNat_ofNat'] <;> omega
  · rw [if_neg h, if_pos h]; rfl

theorem timer_eq (t : Option Nat) : timer t = be4 (t.getD 0) := rfl

theorem be4_length (n : Nat) : (be4 n).length = 4 := rfl

theorem iaaddr_eq (a : List Byte) (h : a.length = 16) : iaaddr a = (askAddr a).bytes := by
  have h4 : be4 0 = [0, 0, 0, 0] := by decide
  have hl : (a ++ [0, 0, 0, 0] ++ [0, 0, 0, 0]).length = 24 := by simp [h]
  simp only [iaaddr, askAddr, Opt.bytes, h4, hl, List.take_of_length_le (Nat.le_of_eq h)]
  simp

theorem enc_map_length (f : α → Opt) (n : Nat) (as : List α) (h : ∀ a ∈ as, (f a).data.length = n) :
    (enc (as.map f)).length = as.length * (n + 4) := by
  induction as with
  | nil => simp [enc]
  | cons a t ih =>
    simp only [List.map_cons, enc, List.length_append, bytes_length, List.length_cons, h a (by simp),
      ih (fun x hx => h x (by simp [hx])), Nat.add_mul]
    omega

/-- The loop over the addresses: those up to the first invalid one are written, the rest stays. -/
theorem appendAll_ok (pton : List Byte → Option (List Byte)) (hp : ∀ s a, pton s = some a → a.length = 16)
    (addrs : List (List Byte)) (as : List (List Byte)) (h : addrs.map pton = as.map some) :
    ∀ (m : List Byte), appendAll pton addrs (m ++ List.replicate (addrs.length * 28) 0) m.length =
      some (m ++ enc (as.map askAddr)) := by
  induction addrs generalizing as with
  | nil =>
    intro m
    cases as with
    | nil => simp [appendAll, enc]
    | cons a t => simp at h
  | cons s t ih =>
    intro m
    cases as with
    | nil => simp at h
    | cons a u =>
      simp only [List.map_cons, List.cons.injEq] at h
      have hl := hp s a h.1
      have hbl : (askAddr a).bytes.length = 28 := by
        rw [bytes_length]; simp [askAddr, be4_length, hl]
      simp only [appendAll, h.1, iaaddr_eq a hl]
      rw [wr_some (by simp [hbl]; omega)]
      simp only [Option.bind_some, List.length_cons, Nat.add_mul, Nat.one_mul, hbl, List.take_left]
      rw [show List.drop (m.length + 28) (m ++ List.replicate (t.length * 28 + 28) (0 : Byte)) =
        List.replicate (t.length * 28) 0 by rw [List.drop_append, List.drop_eq_nil_of_le (by omega)]; simp]
      have := ih u h.2 (m ++ (askAddr a).bytes)
      rw [List.length_append, hbl] at this
      rw [this]
      simp [enc]

theorem prefix_bytes (p : Byte × List Byte) (h : p.2.length = 16) :
    put16 26 ++ put16 25 ++ (List.replicate 8 0 ++ [p.1] ++ p.2.take 16) = (askPrefix p).bytes := by
  have h4 : be4 0 = [0, 0, 0, 0] := by decide
  rw [bytes_eq]
  simp only [askPrefix, h4, List.take_of_length_le (Nat.le_of_eq h)]
  simp [h, List.replicate]

theorem putPrefixes_ok (ps : List (Byte × List Byte)) (hp : ∀ p ∈ ps, p.2.length = 16) : ∀ (b m : List Byte),
    b.length = 1452 → (∃ r, b = m ++ r) →
    (m.length + ps.length * 29 < 1452 → ∃ b', putPrefixes ps b m.length = some (some (b', m.length + ps.length * 29)) ∧
      b'.length = 1452 ∧ ∃ r, b' = m ++ enc (ps.map askPrefix) ++ r) ∧
    (ps ≠ [] → 1452 ≤ m.length + ps.length * 29 → putPrefixes ps b m.length = some none) := by
  induction ps with
  | nil =>
    intro b m hb ⟨r, hr⟩
    refine ⟨fun _ => ⟨b, by simp [putPrefixes], hb, r, by simpa [enc] using hr⟩, by simp⟩
  | cons p t ih =>
    intro b m hb ⟨r, hr⟩
    obtain ⟨n, a⟩ := p
    have hpl := hp (n, a) (by simp)
    have hbl : (askPrefix (n, a)).bytes.length = 29 := by
      rw [bytes_length]; simp [askPrefix, be4_length] at hpl ⊢; omega
    simp only [putPrefixes, List.length_cons]
    have pb := prefix_bytes (n, a) hpl
    simp only at pb
    rw [pb]
    by_cases hbig : m.length + 2 + 2 + 25 ≥ 1452
    · rw [if_pos hbig]
      exact ⟨fun h => by omega, fun _ _ => rfl⟩
    · rw [if_neg hbig, wr_some (by omega)]
      simp only [Option.bind_some]
      have hrl : r.length = 1452 - m.length := by rw [hr, List.length_append] at hb; omega
      have hb1 : b.take m.length ++ (askPrefix (n, a)).bytes ++ b.drop (m.length + (askPrefix (n, a)).bytes.length) =
          (m ++ (askPrefix (n, a)).bytes) ++ r.drop 29 := by
        rw [hr, List.take_left, hbl, List.drop_append, List.drop_eq_nil_of_le (by omega)]; simp
      obtain ⟨h1, h2⟩ := ih (fun q hq => hp q (by simp [hq])) ((m ++ (askPrefix (n, a)).bytes) ++ r.drop 29)
        (m ++ (askPrefix (n, a)).bytes) (by simp [hbl]; omega) ⟨_, rfl⟩
      rw [hb1]
      rw [List.length_append, hbl] at h1 h2
      refine ⟨?_, ?_⟩
      · intro hl
        obtain ⟨b', e, k, r', hr'⟩ := h1 (by omega)
        exact ⟨b', by rw [e, show m.length + 29 + t.length * 29 = m.length + (t.length + 1) * 29 by omega], k, r',
          by rw [hr']; simp [enc]⟩
      · intro _ hl
        by_cases ht : t = []
        · subst ht; simp at hl; omega
        · exact h2 ht (by omega)

end Verif.Client6
