import Verif.Proof.ClientInv
import Verif.Props.Timers
/-!
# Proper answers are processed
-/
namespace Verif.Client
open Verif.C Verif.Options

theorem null_l3 (pkt : List Byte) (hl : pkt.length = 628) (code : Nat) (fuel : Nat) (n : Nat) (hn : n ≤ 388) (hf : n < fuel) :
    loop pkt 0 code fuel { ptr := 628 - n, rem := n, overload := 0 } = .null := by
  induction n generalizing fuel with
  | zero =>
    cases fuel with
    | zero => omega
    | succ f =>
      have h1 : step pkt 0 code { ptr := 628 - 0, rem := ((0 : Nat) : Int), overload := 0 } = .inl .null := by
        unfold step
        rw [if_pos ⟨by simp, by simp⟩]
      unfold loop
      rw [h1]
  | succ n ih =>
    cases fuel with
    | zero => omega
    | succ f =>
      have hp : 628 - (n + 1) < pkt.length := by omega
      have h1 : step pkt 0 code { ptr := 628 - (n + 1), rem := ((n + 1 : Nat) : Int), overload := 0 } = .inl .null ∨
          step pkt 0 code { ptr := 628 - (n + 1), rem := ((n + 1 : Nat) : Int), overload := 0 } =
            .inr { ptr := 628 - n, rem := n, overload := 0 } := by
        unfold step
        rw [if_neg (by simp; omega), List.getElem?_eq_getElem hp]
        dsimp only
        split
        · right
          rw [if_neg (by omega)]
          congr 2
          · omega
          · omega
        · left
          split
          · simp
          · rw [if_pos (by omega)]
      unfold loop
      rcases h1 with h1 | h1 <;> rw [h1]
      exact ih f (by omega) (by omega)

theorem getOption_l3 (pkt : List Byte) (hl : pkt.length = 628) (code : Nat) : getOption pkt 0 code 2000 = .null :=
  null_l3 pkt hl code 2000 388 (by decide) (by decide)

theorem beVal4 (a b c d : Byte) : Wire.Spec.beVal [a, b, c, d] =
    ((a.toNat * 256 + b.toNat) * 256 + c.toNat) * 256 + d.toNat := by
  simp [Wire.Spec.beVal]; omega

/-- The server identifier of a proper answer. -/
theorem proper_server {codes : List Nat} {pkt : List Byte} {re : Int} {os fs ss : List Options.Spec.Item}
    (hP : Spec.Proper codes pkt re os fs ss) (h : Wire.Host) :
    ∃ s, ptrBe32 h pkt (getOption pkt (re % 65536).toNat 0x36 2000) = some s := by
  obtain ⟨d, hd, h4⟩ := hP.server
  have hk := OptValue.lookup_legal hP.layout 54
  rw [hd] at hk
  obtain ⟨j, n, rest, hg, hi, hn, hnl, hin, hdr⟩ := hk
  have hg : getOption pkt (re % 65536).toNat 54 2000 = .ptr j := hg
  rw [hg]
  exact OptValue.getBe_ex _ _ _ _ (by have := hP.layout.size; omega)

/-- The lease time of a proper answer. -/
theorem proper_time {codes : List Nat} {pkt : List Byte} {re : Int} {os fs ss : List Options.Spec.Item}
    (hP : Spec.Proper codes pkt re os fs ss) (h : Wire.Host) :
    ∃ s, Timers.getLease h pkt (re % 65536).toNat 2000 = some s ∧ Spec.LeaseTime (Options.Spec.all os fs ss) s := by
  have := Timers.getLease_value h pkt (Spec.len re) os fs ss hP.layout 2000 (by decide)
  cases hv : Options.Spec.value 51 (Options.Spec.all os fs ss) with
  | none => rw [hv] at this; exact ⟨3600, this, Or.inl ⟨hv, rfl⟩⟩
  | some d =>
    have hl := hP.time d hv
    rw [hv] at this
    match d, hl with
    | [a, b, c, e], hl => exact ⟨_, this, Or.inr ⟨_, hv, rfl, by rw [beVal4]⟩⟩

theorem addr_split (n : Nat) (d : List Byte) (h : d.length = 4 * n) : ∃ l, d = OptValue.Spec.addrBytes l ∧ l.length = n := by
  induction n generalizing d with
  | zero => exact ⟨[], by cases d with
      | nil => rfl
      | cons => simp at h, rfl⟩
  | succ n ih =>
    match d, h with
    | a :: b :: c :: e :: t, h =>
      obtain ⟨l, hl, hn⟩ := ih t (by simp at h; omega)
      exact ⟨(a, b, c, e) :: l, by rw [hl]; simp [OptValue.Spec.addrBytes], by simp [hn]⟩
    | [], h => simp at h
    | [_], h => simp at h; omega
    | [_, _], h => simp at h; omega
    | [_, _, _], h => simp at h; omega

theorem addrBytes_inj : ∀ {a b : List (Byte × Byte × Byte × Byte)}, OptValue.Spec.addrBytes a = OptValue.Spec.addrBytes b → a = b
  | [], [], _ => rfl
  | [], _ :: _, h => by simp [OptValue.Spec.addrBytes] at h
  | _ :: _, [], h => by simp [OptValue.Spec.addrBytes] at h
  | (a1, a2, a3, a4) :: s, (b1, b2, b3, b4) :: t, h => by
    simp only [OptValue.Spec.addrBytes, List.flatMap_cons, List.cons_append, List.nil_append, List.cons.injEq] at h
    obtain ⟨rfl, rfl, rfl, rfl, h⟩ := h
    rw [addrBytes_inj (a := s) (b := t) h]

/-- The options of a proper answer. -/
theorem proper_values {codes : List Nat} {pkt : List Byte} {re : Int} {os fs ss : List Options.Spec.Item}
    (hP : Spec.Proper codes pkt re os fs ss) (h : Wire.Host) (junk : Nat → Nat → Byte) (v : Nat → Option (List (List Byte))) :
    ∃ v', OptValue.getRequest h junk pkt (re % 65536).toNat codes v = some v' ∧
      Spec.Reported codes (Options.Spec.all os fs ss) v' := by
  have hex : ∀ k, ∃ l, k ∈ codes → Options.Spec.value k (Options.Spec.all os fs ss) = none ∨
      (l ≠ [] ∧ Options.Spec.value k (Options.Spec.all os fs ss) = some (OptValue.Spec.addrBytes l)) := by
    intro k
    by_cases hk : k ∈ codes
    · cases hv : Options.Spec.value k (Options.Spec.all os fs ss) with
      | none => exact ⟨[], fun _ => Or.inl rfl⟩
      | some d =>
        obtain ⟨h1, h2⟩ := hP.lists k hk d hv
        obtain ⟨l, hl, hn⟩ := addr_split (d.length / 4) d (by omega)
        refine ⟨l, fun _ => Or.inr ⟨?_, by rw [hl]⟩⟩
        intro h0
        subst h0
        exact h1 hl
    · exact ⟨[], fun h => absurd h hk⟩
  obtain ⟨f, hf⟩ := Classical.axiomOfChoice hex
  obtain ⟨v', hv', hr, -⟩ := OptValue.request_values_partial h junk pkt (Spec.len re) os fs ss hP.layout codes hP.asked f hf v
  refine ⟨v', hv', fun k hk => ?_⟩
  rw [hr k hk]
  constructor
  · intro h0; rw [h0]; rfl
  · intro l hl
    rcases hf k hk with h0 | ⟨-, h0⟩
    · rw [h0] at hl; cases hl
    · rw [hl] at h0
      rw [hl, addrBytes_inj (Option.some.inj h0)]
      rfl

theorem ack_some {codes : List Nat} {pkt : List Byte} {re : Int} {os fs ss : List Options.Spec.Item}
    (hP : Spec.Proper codes pkt re os fs ss) {c : Cl} (hg : Good c) (hc : c.codes = codes) (e : Env) :
    ∃ c' o, c.onAck pkt (re % 65536).toNat e = some (c', o) := by
  obtain ⟨s, hs, -⟩ := proper_time hP e.host
  obtain ⟨v, hv, -⟩ := proper_values hP e.host e.junk c.vals
  obtain ⟨srv, hsrv⟩ := proper_server hP e.host
  obtain ⟨a, ha⟩ := OptValue.getBe_ex e.host 4 pkt 16 (by have := hP.layout.size; omega)
  unfold Cl.onAck
  rw [removeTimeouts_cover _ (show Cover ({ c with retry := 0 } : Cl) from hg.shape.cover)]
  dsimp only
  rw [hc, hs]
  simp only [Option.bind_eq_bind, Option.bind_some, hv]
  rw [switch_none _ (by exact hg.watch)]
  simp only [ha, Option.bind_some, hsrv]
  split
  · exact ⟨_, _, rfl⟩
  · exact ⟨_, _, rfl⟩

theorem mine_owner {c : Cl} {pkt : List Byte} (hl : pkt.length = 628) (h : Spec.Mine c.mac c.xid pkt) : c.owner pkt = true := by
  unfold Cl.owner
  rw [rd_some (by omega), rd_some (by omega), h.xid, h.hlen, h.chaddr]
  simp

end Verif.Client
