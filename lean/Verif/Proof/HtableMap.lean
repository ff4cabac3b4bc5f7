import Verif.Proof.HtableInv
import Verif.Spec.HtableMap
/-! Helpers for typed hash tables. -/
namespace Verif.HtableMap
open Verif.C Verif.Htable
open Verif.HtableMap.Spec (Map Allowed next AllAllowed Right Legal LegalRun)

/-- The invariant only speaks about the hashes of the elements. -/
theorem inv_congr {f g : W → W} {B : Nat} {ht : HT} {S : List W} (I : Inv f B ht S) (h : ∀ p ∈ S, f p = g p) :
    Inv g B ht S := by
  rcases I with ⟨a, b⟩ | ⟨A, T⟩
  · exact Or.inl ⟨a, b⟩
  · have hent : ∀ k < 2 ^ ht.bits, ∀ p, A k = .ent p → f p = g p := fun k hk p e =>
      h p (T.perm.mem_iff.mp (mem_contents.mpr ⟨k, hk, e⟩))
    refine Or.inr ⟨A, ?_, ?_, T.perm, T.elems, T.used, T.sum, T.emax, T.max, T.maxwd, T.bits, T.mask⟩
    · obtain ⟨t, h1, h2, h3⟩ := T.lay.tab
      refine ⟨T.lay.hK, T.lay.bits, ⟨t, h1, h2, fun k hk => ?_⟩, T.lay.cm, T.lay.pm, T.lay.good⟩
      rw [h3 k hk]
      cases e : A k with
      | empty => rfl
      | del => rfl
      | ent p =>
        show some (encE ht k (f p) p) = some (encE ht k (g p) p)
        rw [hent k hk p e]
    · intro k hk p e
      have := T.pinv k hk p e
      simp only [hent k hk p e] at this
      exact this

/-- One call of the bare table. -/
theorem step_inv {f : W → W} {B : Nat} {ht : HT} {S : List W} (hB : 1 ≤ B) (I : Inv f B ht S) (o : Op)
    (hl : S.length + 1 ≤ 2 ^ 29) (law : Htable.Spec.Lawful f o) (top : Htable.Spec.TopBit B o) :
    ∃ h1 out S1, Htable.step f ht o = some (h1, out) ∧ Htable.Spec.Step S o out S1 ∧ Inv f B h1 S1 := by
  obtain ⟨h1, outs, S1, e, st, I1⟩ := run_inv hB [o] I (by simpa using hl) (by simpa using law) (by simpa using top)
  cases st with
  | cons s1 s2 =>
    cases s2
    rw [Htable.run] at e
    cases es : Htable.step f ht o with
    | none => rw [es] at e; cases e
    | some r =>
      rw [es] at e
      simp only [Htable.run, Option.bind_eq_bind, Option.bind_some, Option.pure_def, Option.some.injEq, Prod.mk.injEq,
        List.cons.injEq, and_true] at e
      obtain ⟨rfl, rfl⟩ := e
      exact ⟨r.1, r.2, S1, rfl, s1, I1⟩

/-- What makes a sort of keys work. -/
structure Good {K : Type} (T : Sort' K) : Prop where
  cmp : ∀ a b, T.cmp a b = true ↔ a = b
  pass : ∀ k c, Right T k c → T.pass k c = T.hash k

theorem good_uint : Good uint := ⟨fun a b => by simp [uint], fun _ _ _ => rfl⟩

theorem good_u64 : Good u64 := ⟨fun a b => by simp [u64], fun _ _ _ => rfl⟩

theorem good_str (ext : Byte → W) : Good (str ext) := by
  refine ⟨fun a b => ?_, fun k c h => ?_⟩
  · cases a <;> cases b <;> simp [str, cmpStr]
  · show (hashStr ext k c).1 = djb ext k
    rcases h with rfl | rfl | rfl
    · rfl
    · rfl
    · show (hashStr ext k (some (djb ext k))).1 = djb ext k
      unfold hashStr
      by_cases h0 : djb ext k ≠ 0#64
      · simp only [if_pos h0]
      · simp only [if_neg h0]

/-- The table holds the map. -/
structure Holds {K : Type} (T : Sort' K) (B : Nat) (s : St K) (M : Map K) (S : List W) : Prop where
  inv : Inv (fun q => T.hash (s.key q)) B s.ht S
  nodup : S.Nodup
  map : ∀ k p, M k = some p ↔ p ∈ S ∧ s.key p = k

variable {K : Type} [DecidableEq K] {T : Sort' K} {B : Nat} {s : St K} {M : Map K} {S : List W}

theorem Holds.found (H : Holds T B s M S) (G : Good T) {k : K} {r : Option W}
    (h : (∃ c, r = some c ∧ c ∈ S ∧ T.cmp k (s.key c) = true) ∨ (r = none ∧ ∀ c ∈ S, T.cmp k (s.key c) = false)) : r = M k := by
  rcases h with ⟨c, rfl, hc, e⟩ | ⟨rfl, h⟩
  · exact ((H.map k c).mpr ⟨hc, ((G.cmp _ _).mp e).symm⟩).symm
  · cases e : M k with
    | none => rfl
    | some p =>
      obtain ⟨a, b⟩ := (H.map k p).mp e
      have h1 := h p a
      rw [(G.cmp _ _).mpr b.symm] at h1
      cases h1

theorem Holds.seen (H : Holds T B s M S) {l : List W} (h : l.Perm S) : l.Nodup ∧ ∀ p, p ∈ l ↔ ∃ k, M k = some p := by
  refine ⟨h.nodup_iff.mpr H.nodup, fun p => ?_⟩
  rw [h.mem_iff]
  exact ⟨fun hp => ⟨s.key p, (H.map _ _).mpr ⟨hp, rfl⟩⟩, fun ⟨k, e⟩ => ((H.map k p).mp e).1⟩

theorem key_law (G : Good T) {key : W → K} {k : K} {c : Option W} (hc : Right T k c) (x : W)
    (hx : T.cmp k (key x) = true) : T.hash (key x) = T.pass k c := by
  rw [G.pass k c hc, (G.cmp _ _).mp hx]

/-- One call. -/
theorem step_holds (hB : 1 ≤ B) (G : Good T) (H : Holds T B s M S) (o : Call K) (hl : S.length + 1 ≤ 2 ^ 29)
    (law : Legal T B M o) : ∃ s1 out S1, step T s o = some (s1, out) ∧ Allowed M o out ∧ Holds T B s1 (next M o out) S1 ∧
      S1.length ≤ S.length + 1 := by
  cases o with
  | insert mem p k c =>
    obtain ⟨hk, hp, htop, hc⟩ := law
    have hpS : p ∉ S := fun h => hp (s.key p) ((H.map _ _).mpr ⟨h, rfl⟩)
    let key : W → K := fun q => if q = p then k else s.key q
    have hkey : ∀ q ∈ S, key q = s.key q := fun q hq => if_neg fun e : q = p => hpS (e ▸ hq)
    have hkp : key p = k := if_pos rfl
    have I : Inv (fun q => T.hash (key q)) B s.ht S := inv_congr H.inv fun q hq => by
      show T.hash (s.key q) = T.hash (key q)
      rw [hkey q hq]
    have hp0 : p ≠ 0#64 := by
      rintro rfl
      have := htop.1
      have h2 := Nat.two_pow_pos B
      simp at this
    obtain ⟨h1, out, S1, e, st, I1⟩ := step_inv hB I (.insert mem p) hl hp0 htop
    rw [Htable.step] at e
    have hpass : T.pass k c = T.hash (key p) := by rw [hkp]; exact G.pass k c hc
    have hstep : step T s (.insert mem p k c) = (Htable.add (fun q => T.hash (key q)) mem s.ht (T.hash (key p)) p).bind
        fun r => some (⟨key, r.1⟩, .ok r.2) := by
      rw [← hpass]; rfl
    cases ea : Htable.add (fun q => T.hash (key q)) mem s.ht (T.hash (key p)) p with
    | none => rw [ea] at e; cases e
    | some r =>
      rw [ea] at e
      simp only [Option.bind_eq_bind, Option.bind_some, Option.pure_def, Option.some.injEq, Prod.mk.injEq] at e
      obtain ⟨rfl, rfl⟩ := e
      rw [hstep, ea]
      generalize ho : Out.ok r.2 = out at *
      cases st with
      | inserted =>
        refine ⟨⟨key, r.1⟩, .ok true, p :: S, by rw [Option.bind_some, ho], Or.inl rfl, ⟨I1, List.nodup_cons.mpr ⟨hpS, H.nodup⟩, ?_⟩, by simp⟩
        intro x q
        show (if x = k then some p else M x) = some q ↔ q ∈ p :: S ∧ key q = x
        by_cases hx : x = k
        · rw [if_pos hx, hx]
          constructor
          · intro h
            cases h
            exact ⟨by simp, hkp⟩
          · rintro ⟨h, e⟩
            rcases List.mem_cons.mp h with rfl | h
            · rfl
            · rw [hkey q h] at e
              rw [(H.map k q).mpr ⟨h, e⟩] at hk
              cases hk
        · rw [if_neg hx, H.map x q]
          constructor
          · rintro ⟨a, b⟩
            exact ⟨List.mem_cons_of_mem _ a, by rw [hkey q a]; exact b⟩
          · rintro ⟨h, e⟩
            rcases List.mem_cons.mp h with rfl | h
            · exact absurd (e.symm.trans hkp) hx
            · exact ⟨h, by rw [← hkey q h]; exact e⟩
      | oom =>
        refine ⟨⟨key, r.1⟩, .ok false, S, by rw [Option.bind_some, ho], Or.inr ⟨rfl, rfl⟩, ⟨I1, H.nodup, fun x q => ?_⟩, by omega⟩
        show M x = some q ↔ q ∈ S ∧ key q = x
        rw [H.map x q]
        constructor
        · rintro ⟨a, b⟩; exact ⟨a, by rw [hkey q a]; exact b⟩
        · rintro ⟨a, b⟩; exact ⟨a, by rw [← hkey q a]; exact b⟩
  | remove k c =>
    obtain ⟨h1, out, S1, e, st, I1⟩ := step_inv hB H.inv (.remove (fun q => T.cmp k (s.key q)) (T.pass k c)) hl
      (fun x hx => key_law G law x hx) trivial
    rw [Htable.step] at e
    have hstep : step T s (.remove k c) = (Htable.remove (fun q => T.cmp k (s.key q)) (T.pass k c) s.ht).bind
        fun r => some ({ s with ht := r.1 }, .found r.2) := rfl
    cases ea : Htable.remove (fun q => T.cmp k (s.key q)) (T.pass k c) s.ht with
    | none => rw [ea] at e; cases e
    | some r =>
      rw [ea] at e
      simp only [Option.bind_eq_bind, Option.bind_some, Option.pure_def, Option.some.injEq, Prod.mk.injEq] at e
      obtain ⟨rfl, rfl⟩ := e
      rw [hstep, ea]
      generalize ho : Out.found r.2 = out at *
      cases st with
      | @removed _ _ x hx hcx =>
        have hM := H.found G (Or.inl ⟨x, rfl, hx, hcx⟩)
        refine ⟨{ s with ht := r.1 }, .found (some x), S.erase x, by rw [Option.bind_some, ho], by rw [hM]; rfl,
          ⟨I1, H.nodup.erase x, fun y q => ?_⟩, by have := List.length_erase_le (a := x) (l := S); omega⟩
        show (if y = k then none else M y) = some q ↔ q ∈ S.erase x ∧ s.key q = y
        rw [H.nodup.mem_erase_iff]
        have hkx := (H.map k x).mp hM.symm
        by_cases hy : y = k
        · rw [if_pos hy, hy]
          constructor
          · intro h; cases h
          · rintro ⟨⟨a, b⟩, e⟩
            have := (H.map k q).mpr ⟨b, e⟩
            rw [← hM] at this
            exact absurd (Option.some.inj this).symm a
        · rw [if_neg hy, H.map y q]
          constructor
          · rintro ⟨a, b⟩
            exact ⟨⟨fun e => hy (by rw [← b, e]; exact hkx.2), a⟩, b⟩
          · rintro ⟨⟨_, a⟩, b⟩; exact ⟨a, b⟩
      | notRemoved hn =>
        have hM := H.found G (r := none) (Or.inr ⟨rfl, hn⟩)
        refine ⟨{ s with ht := r.1 }, .found none, S, by rw [Option.bind_some, ho], by rw [hM]; rfl, ⟨I1, H.nodup, fun y q => ?_⟩, by omega⟩
        show (if y = k then none else M y) = some q ↔ q ∈ S ∧ s.key q = y
        by_cases hy : y = k
        · rw [if_pos hy, ← H.map y q, hy, ← hM]
        · rw [if_neg hy, H.map y q]
  | lookup k c =>
    obtain ⟨h1, out, S1, e, st, I1⟩ := step_inv hB H.inv (.lookup (fun q => T.cmp k (s.key q)) (T.pass k c)) hl
      (fun x hx => key_law G law x hx) trivial
    rw [Htable.step] at e
    have hstep : step T s (.lookup k c) = (Htable.lookup (fun q => T.cmp k (s.key q)) (T.pass k c) s.ht).bind
        fun r => some (s, .found r) := rfl
    cases ea : Htable.lookup (fun q => T.cmp k (s.key q)) (T.pass k c) s.ht with
    | none => rw [ea] at e; cases e
    | some r =>
      rw [ea] at e
      simp only [Option.bind_eq_bind, Option.bind_some, Option.pure_def, Option.some.injEq, Prod.mk.injEq] at e
      obtain ⟨rfl, rfl⟩ := e
      rw [hstep, ea]
      generalize ho : Out.found r = out at *
      cases st with
      | @found _ _ x hx hcx =>
        have hM := H.found G (Or.inl ⟨x, rfl, hx, hcx⟩)
        exact ⟨s, .found (some x), S, by rw [Option.bind_some, ho], by rw [hM]; rfl, H, by omega⟩
      | notFound hn =>
        have hM := H.found G (r := none) (Or.inr ⟨rfl, hn⟩)
        exact ⟨s, .found none, S, by rw [Option.bind_some, ho], by rw [hM]; rfl, H, by omega⟩
  | iterate =>
    obtain ⟨l, e, hl'⟩ := iterate_inv H.inv
    exact ⟨s, .seen l, S, by simp [step, e], ⟨l, rfl, H.seen (by rw [hl']; exact visit_inv H.inv)⟩, H, by omega⟩
  | visit => exact ⟨s, .seen (visit s.ht), S, rfl, ⟨_, rfl, H.seen (visit_inv H.inv)⟩, H, by omega⟩
  | clear =>
    exact ⟨{ s with ht := (clear s.ht).1 }, .seen (visit s.ht), [], rfl, ⟨_, rfl, H.seen (visit_inv H.inv)⟩,
      ⟨Or.inl ⟨rfl, rfl⟩, List.nodup_nil, fun _ _ => by simp [next]⟩, by simp⟩

theorem run_holds (hB : 1 ≤ B) (G : Good T) : ∀ (ops : List (Call K)) (s : St K) (M : Map K) (S : List W), Holds T B s M S →
    S.length + ops.length ≤ 2 ^ 29 → LegalRun T B s M ops →
    ∃ s' outs, run T s ops = some (s', outs) ∧ AllAllowed M ops outs := by
  intro ops
  induction ops with
  | nil => intro s M S _ _ _; exact ⟨s, [], rfl, trivial⟩
  | cons o t ih =>
    intro s M S H hl hL
    simp only [List.length_cons] at hl
    obtain ⟨s1, out, S1, e, ha, H1, hl1⟩ := step_holds hB G H o (by omega) hL.1
    obtain ⟨s2, outs, e2, ha2⟩ := ih s1 _ S1 H1 (by omega) (hL.2 s1 out e)
    exact ⟨s2, out :: outs, by simp [run, e, e2], ha, ha2⟩

end Verif.HtableMap
