import Verif.Proof.P2pConn
import Verif.Model.DhcpLines
import Verif.Props.Mac
/-! What a line of the helper changes. -/
namespace Verif.P2p
open Verif.C Spec

theorem reads_text (k : Byte) {t : List Byte} (h : Text t) : reads (k :: ch ':' :: t) = some (k, t) := by
  obtain ⟨h1, h2, h3⟩ := h
  have hc : cut (t.take 509) = t := by
    rw [List.take_of_length_le h3]
    unfold cut
    have := List.takeWhile_append_of_pos (p := fun c : Byte => decide (c ≠ 0)) (l₁ := t) (l₂ := [])
      (by intro c hc; simp only [decide_eq_true_eq]; rintro rfl; exact h2 hc)
    simpa using this
  unfold reads
  simp only [hc]
  simp [h1]

theorem forget_conn {s s' : S} {p : Nat} {v : Bool} (h : s.connectedChanged p v = some s') :
    s'.gheap = s.gheap ∧ ∀ q, (s'.pheap q).map forget = (s.pheap q).map forget := by
  unfold S.connectedChanged at h
  split at h
  · cases h
  · rename_i y hy
    split at h
    · cases h; exact ⟨rfl, fun _ => rfl⟩
    · cases h
      rw [emitIf_eq]
      refine ⟨rfl, fun q => ?_⟩
      by_cases e : q = p
      · subst e; simp [S.setPeer, upd_same, hy, forget]
      · simp [S.setPeer, upd_ne _ _ e]

theorem forget_tell (g : Nat) : ∀ (l : List Nat) {s s' : S}, s.tell g l = some s' →
    s'.gheap = s.gheap ∧ ∀ q, (s'.pheap q).map forget = (s.pheap q).map forget
  | [], s, s', h => by cases h; exact ⟨rfl, fun _ => rfl⟩
  | p :: t, s, s', h => by
    unfold S.tell at h
    split at h
    · cases h
    · split at h
      · exact forget_tell g t h
      · split at h
        · cases h
        · rename_i s1 h1
          obtain ⟨a, b⟩ := forget_tell g t h
          obtain ⟨c, d⟩ := forget_conn h1
          exact ⟨a.trans c, fun q => (b q).trans (d q)⟩

theorem forget_announce {s s' : S} {g : Nat} (h : s.announce g = some s') :
    s'.gheap = s.gheap ∧ ∀ q, (s'.pheap q).map forget = (s.pheap q).map forget := by
  unfold S.announce at h
  split at h
  · cases h
  · split at h
    · cases h; exact ⟨rfl, fun _ => rfl⟩
    · split at h
      · split at h
        · cases h
        · split at h
          · cases h; exact ⟨rfl, fun _ => rfl⟩
          · exact forget_conn h
      · exact forget_tell _ _ h

theorem comm_step {s : S} {g : Nat} (hg : g ∈ s.groups) (c : Comm) (a b : Bool) : s.step (.comm g c a b) = s.comm g c a b := by
  simp [S.step, Op.fromWpas, S.handle, hg]

/-- An `L` line. -/
theorem line_L {s s' : S} {g : Nat} {x : Grp} (hg : g ∈ s.groups) (hx : s.gheap g = some x) {l t : List Byte} (hr : reads l = some (ch 'L', t))
    {m : Bool} (e : s.step (.comm g (.line l) true m) = some s') :
    s'.gheap = upd s.gheap g (some { x with localAddr := some t }) ∧ ∀ q, (s'.pheap q).map forget = (s.pheap q).map forget := by
  rw [comm_step hg, comm_line s hx, hr] at e
  simp only [Bool.true_eq_false, if_false] at e
  obtain ⟨s1, e1, e2⟩ := Option.bind_eq_some_iff.mp e
  simp only [S.applyLine, if_true] at e1
  cases e1
  exact forget_announce e2

/-- A `G` line for a group with an owner. -/
theorem line_G {s s' : S} {g p : Nat} {x : Grp} {y : Peer} (hg : g ∈ s.groups) (hx : s.gheap g = some x) (ho : x.owner = some p) (hp : s.pheap p = some y)
    {l t : List Byte} (hr : reads l = some (ch 'G', t)) {m : Bool} (e : s.step (.comm g (.line l) true m) = some s') :
    s'.gheap = s.gheap ∧ (s'.pheap p).map forget = some (forget { y with remote := some t }) ∧ ∀ q, q ≠ p → (s'.pheap q).map forget = (s.pheap q).map forget := by
  rw [comm_step hg, comm_line s hx, hr] at e
  simp only [Bool.true_eq_false, if_false] at e
  obtain ⟨s1, e1, e2⟩ := Option.bind_eq_some_iff.mp e
  simp only [S.applyLine, if_neg (show ch 'G' ≠ ch 'L' by decide), if_true, ho, hp] at e1
  cases e1
  obtain ⟨a, b⟩ := forget_announce e2
  refine ⟨a, (b p).trans ?_, fun q hq => (b q).trans ?_⟩
  · simp [S.setPeer, upd_same]
  · simp [S.setPeer, upd_ne _ _ hq]

/-- An `R` line. -/
theorem line_R {s s' : S} {g p : Nat} {x : Grp} {y : Peer} (hg : g ∈ s.groups) (hx : s.gheap g = some x) (hp : s.pheap p = some y)
    {l mac ip : List Byte} (hr : reads l = some (ch 'R', mac ++ ch ' ' :: ip)) (hm : ch ' ' ∉ mac) (hm0 : mac ≠ []) (hi : ip ≠ [])
    (hf : s.findAny (s.norm mac) = some p) (e : s.step (.comm g (.line l) true true) = some s') :
    s'.gheap = s.gheap ∧ (s'.pheap p).map forget = some (forget { y with remote := some ip }) ∧ ∀ q, q ≠ p → (s'.pheap q).map forget = (s.pheap q).map forget := by
  rw [comm_step hg, comm_line s hx, hr] at e
  simp only [Bool.true_eq_false, if_false] at e
  obtain ⟨s1, e1, e2⟩ := Option.bind_eq_some_iff.mp e
  have hall : ∀ c ∈ mac, (decide (c ≠ ch ' ')) = true := by
    intro c hc; simp only [decide_eq_true_eq]; rintro rfl; exact hm hc
  have h1 : (mac ++ ch ' ' :: ip).takeWhile (· ≠ ch ' ') = mac := by
    rw [List.takeWhile_append_of_pos hall]; simp
  have h2 : (mac ++ ch ' ' :: ip).dropWhile (· ≠ ch ' ') = ch ' ' :: ip := by
    rw [List.dropWhile_append_of_pos hall]; simp
  simp only [S.applyLine, if_neg (show ch 'R' ≠ ch 'L' by decide), if_neg (show ch 'R' ≠ ch 'G' by decide), if_true] at e1
  rw [h1, h2] at e1
  simp only [List.drop_succ_cons, List.drop_zero, hf, hp, Bool.true_eq_false, if_false] at e1
  rw [if_neg (by rintro (h | h); exact hm0 h; exact hi h)] at e1
  cases e1
  obtain ⟨a, b⟩ := forget_announce e2
  refine ⟨a, (b p).trans ?_, fun q hq => (b q).trans ?_⟩
  · simp [S.setPeer, upd_same]
  · simp [S.setPeer, upd_ne _ _ hq]

/-- Any other line. -/
theorem line_other {s s' : S} {g : Nat} {x : Grp} (hg : g ∈ s.groups) (hx : s.gheap g = some x) {l : List Byte}
    (hr : ∀ k t, reads l = some (k, t) → k ≠ ch 'L' ∧ k ≠ ch 'G' ∧ k ≠ ch 'R') {m1 m2 : Bool}
    (e : s.step (.comm g (.line l) m1 m2) = some s') :
    s'.gheap = s.gheap ∧ ∀ q, (s'.pheap q).map forget = (s.pheap q).map forget := by
  rw [comm_step hg, comm_line s hx] at e
  cases h : reads l with
  | none => rw [h] at e; cases e; exact ⟨rfl, fun _ => rfl⟩
  | some kt =>
    obtain ⟨k, t⟩ := kt
    obtain ⟨a, b, c⟩ := hr k t h
    rw [h] at e
    simp only [] at e
    split at e
    · cases e; exact ⟨rfl, fun _ => rfl⟩
    · obtain ⟨s1, e1, e2⟩ := Option.bind_eq_some_iff.mp e
      simp only [S.applyLine, if_neg a, if_neg b, if_neg c] at e1
      cases e1
      exact forget_announce e2

theorem findAny_unique {s : S} (h : Good s) {p : Nat} {y : Peer} {mac : List Byte} (hp : s.pheap p = some y) (hm : y.mac = mac ∨ y.sta = some mac)
    (hu : ∀ q z, s.pheap q = some z → (z.mac = mac ∨ z.sta = some mac) → q = p) : s.findAny mac = some p := by
  cases hf : s.findAny mac with
  | none =>
    unfold S.findAny at hf
    rw [List.find?_eq_none] at hf
    have := hf p ((h.i.pl p).mpr ⟨y, hp⟩)
    rw [hp] at this
    rcases hm with hm | hm <;> simp [hm] at this
  | some q =>
    obtain ⟨_, z, hz, e⟩ := findAny_some hf
    rw [hu q z hz e]

/-- Lines are defined as long as the owner is there. -/
theorem line_defined {s : S} (h : Inv s) {g : Nat} {x : Grp} (hx : s.gheap g = some x) (ho : ∀ p, x.owner = some p → ∃ y, s.pheap p = some y)
    (l : List Byte) (m1 m2 : Bool) : ∃ s', s.step (.comm g (.line l) m1 m2) = some s' ∧ Inv s' := by
  rcases step_case h (.comm g (.line l) m1 m2) with ⟨hb, _⟩ | ⟨_, s', e, i⟩
  · exfalso
    rcases hb with ⟨k, hd, _⟩ | hd
    · simp [Destroys] at hd
    · cases m1 with
      | false => simp [Dangles] at hd
      | true =>
        obtain ⟨x', p, k, t, _, hx', ho', hp, _⟩ := hd
        rw [hx] at hx'; cases hx'
        obtain ⟨y, hy⟩ := ho p ho'
        rw [hp] at hy; cases hy
  · exact ⟨s', e, i⟩

theorem digit_not_blank {c : Byte} {v : Nat} (h : Mac.Spec.Digit c v) : c ≠ ch ' ' := by
  obtain ⟨_, _, h3, _⟩ := Mac.digit_facts c v h
  rintro rfl
  revert h3; decide

theorem writes_text {f : List Byte} {b : Byte} (h : Mac.Spec.Writes f b) : f ≠ [] ∧ ch ' ' ∉ f := by
  rcases h with ⟨c, rfl, hc⟩ | ⟨c, d, v, w, rfl, hc, hd, _⟩
  · refine ⟨by simp, ?_⟩
    intro e; simp at e; exact digit_not_blank hc e.symm
  · refine ⟨by simp, ?_⟩
    intro e
    simp at e
    rcases e with e | e
    · exact digit_not_blank hc e.symm
    · exact digit_not_blank hd e.symm

theorem join_text {fs : List (List Byte)} {bs : List Byte} (h : Mac.Spec.WritesAll fs bs) (h0 : 0 < fs.length) :
    Mac.Spec.join fs ≠ [] ∧ ch ' ' ∉ Mac.Spec.join fs := by
  induction h with
  | nil => simp at h0
  | @cons f b fs bs hw hrest ih =>
    obtain ⟨a, c⟩ := writes_text hw
    cases fs with
    | nil => exact ⟨a, c⟩
    | cons f2 fs2 =>
      obtain ⟨d, e⟩ := ih (by simp)
      refine ⟨by simp [Mac.Spec.join], ?_⟩
      show ch ' ' ∉ f ++ 58 :: Mac.Spec.join (f2 :: fs2)
      intro hm
      rcases List.mem_append.mp hm with hm | hm
      · exact c hm
      · rcases List.mem_cons.mp hm with hm | hm
        · revert hm; decide
        · exact e hm

theorem run_append (a b : List Op) (s : S) : s.run (a ++ b) = (s.run a).bind (fun s => s.run b) := by
  induction a generalizing s with
  | nil => rfl
  | cons o t ih =>
    simp only [List.cons_append, S.run]
    cases s.step o with
    | none => rfl
    | some s1 => exact ih s1

theorem announce_owner {s s' : S} {g p : Nat} {x : Grp} {y : Peer} (hx : s.gheap g = some x) (ho : x.owner = some p) (hp : s.pheap p = some y)
    (e : s.announce g = some s') : ∃ y', s'.pheap p = some y' ∧ y'.remote = y.remote ∧ (x.localAddr ≠ none → y.remote ≠ none → y'.connected = true) := by
  unfold S.announce at e
  simp only [hx, ho, hp] at e
  split at e
  · rename_i h0
    cases e; exact ⟨y, hp, rfl, fun h => absurd h0 h⟩
  · split at e
    · rename_i h0
      cases e; exact ⟨y, hp, rfl, fun _ h => absurd h0 h⟩
    · unfold S.connectedChanged at e
      simp only [hp] at e
      split at e
      · rename_i hc; cases e; exact ⟨y, hp, rfl, fun _ _ => hc⟩
      · cases e
        rw [emitIf_eq]
        exact ⟨_, upd_same _ _ _, rfl, fun _ _ => rfl⟩

/-- A packet, not of a server, for a group that a live peer owns. -/
theorem owned_line {s : S} (h : Inv s) {g p : Nat} {x : Grp} {y : Peer} (hx : s.gheap g = some x) (ho : x.owner = some p) (hp : s.pheap p = some y)
    {l t : List Byte} {k : Byte} (hr : reads l = some (k, t)) (hk : k ≠ ch 'R') :
    ∃ s' x' y', s.step (.comm g (.line l) true true) = some s' ∧ Inv s' ∧ s'.gheap g = some x' ∧ x'.owner = some p ∧ s'.pheap p = some y' ∧
      x'.localAddr = (if k = ch 'L' then some t else x.localAddr) ∧ y'.remote = (if k = ch 'G' then some t else y.remote) ∧
      (x'.localAddr ≠ none → y'.remote ≠ none → y'.connected = true) := by
  obtain ⟨s', e, hi⟩ := line_defined h hx (by intro q hq; rw [ho] at hq; cases hq; exact ⟨y, hp⟩) l true true
  refine ⟨s', ?_⟩
  have e' := e
  have hg : g ∈ s.groups := (h.g.i.gl g).mpr ⟨x, hx⟩
  rw [comm_step hg, comm_line s hx, hr] at e
  simp only [Bool.true_eq_false, if_false] at e
  obtain ⟨s1, e1, e2⟩ := Option.bind_eq_some_iff.mp e
  obtain ⟨a, _⟩ := forget_announce e2
  unfold S.applyLine at e1
  by_cases hL : k = ch 'L'
  · subst hL
    rw [if_pos rfl] at e1
    cases e1
    obtain ⟨y', b, c, d⟩ := announce_owner (s := s.setGrp g { x with localAddr := some t }) (x := { x with localAddr := some t }) (y := y) (upd_same _ _ _) ho hp e2
    refine ⟨{ x with localAddr := some t }, y', e', hi, ?_, ?_, b, ?_, ?_, ?_⟩
    · rw [a]; exact upd_same _ _ _
    · exact ho
    · rw [if_pos rfl]
    · rw [c, if_neg (by decide)]
    · rw [c]; exact d
  · rw [if_neg hL] at e1
    by_cases hG : k = ch 'G'
    · subst hG
      rw [if_pos rfl] at e1
      simp only [ho, hp] at e1
      cases e1
      obtain ⟨y', b, c, d⟩ := announce_owner (s := s.setPeer p { y with remote := some t }) (x := x) (y := { y with remote := some t }) hx ho (upd_same _ _ _) e2
      refine ⟨x, y', e', hi, by rw [a]; exact hx, ho, b, by rw [if_neg hL], by rw [c, if_pos rfl], by rw [c]; exact d⟩
    · rw [if_neg hG, if_neg hk] at e1
      cases e1
      obtain ⟨y', b, c, d⟩ := announce_owner hx ho hp e2
      exact ⟨x, y', e', hi, by rw [a]; exact hx, ho, b, by rw [if_neg hL], by rw [c, if_neg hG], by rw [c]; exact d⟩

/-- The state is that of the addresses `a` and `r`. -/
def Addrs (s : S) (g p : Nat) (a r : Option (List Byte)) : Prop :=
  Inv s ∧ ∃ x y, s.gheap g = some x ∧ x.owner = some p ∧ s.pheap p = some y ∧ x.localAddr = a ∧ y.remote = r ∧ (a ≠ none → r ≠ none → y.connected = true)

theorem addrs_line {s : S} {g p : Nat} {a r : Option (List Byte)} {x : Grp} {y : Peer} (h : Inv s) (hx : s.gheap g = some x) (ho : x.owner = some p)
    (hp : s.pheap p = some y) (ha : x.localAddr = a) (hr : y.remote = r) (k : Byte) {t : List Byte} (ht : Text t) (hk : k ≠ ch 'R') :
    ∃ s', s.step (.comm g (.line (k :: ch ':' :: t)) true true) = some s' ∧ Addrs s' g p (if k = ch 'L' then some t else a) (if k = ch 'G' then some t else r) := by
  obtain ⟨s', x', y', e, i, b, c, d, f, g', m⟩ := owned_line h hx ho hp (reads_text k ht) hk
  subst ha; subst hr
  exact ⟨s', e, i, x', y', b, c, d, f, g', by rw [← f, ← g']; exact m⟩

theorem Addrs.line {s : S} {g p : Nat} {a r : Option (List Byte)} (h : Addrs s g p a r) (k : Byte) {t : List Byte} (ht : Text t) (hk : k ≠ ch 'R') :
    ∃ s', s.step (.comm g (.line (k :: ch ':' :: t)) true true) = some s' ∧ Addrs s' g p (if k = ch 'L' then some t else a) (if k = ch 'G' then some t else r) := by
  obtain ⟨i, x, y, hx, ho, hp, ha, hr, _⟩ := h
  exact addrs_line i hx ho hp ha hr k ht hk

end Verif.P2p
