import Verif.Proof.Client6Set
/-!
# Helper lemmas: reading DHCPv6 options
-/
namespace Verif.Client6
open Verif.C Verif.Dhcp6.Spec Verif.Client6.Spec

/-- `l` is in the block at `p`. -/
def At (buf : List Byte) (p : Nat) (l : List Byte) : Prop := ∃ post, buf.drop p = l ++ post

theorem At.mk (pre l post : List Byte) : At (pre ++ l ++ post) pre.length l :=
  ⟨post, by rw [List.append_assoc, List.drop_left]⟩

theorem At.left {buf : List Byte} {p : Nat} {a b : List Byte} (h : At buf p (a ++ b)) : At buf p a := by
  obtain ⟨q, hq⟩ := h; exact ⟨b ++ q, by rw [hq, List.append_assoc]⟩

theorem At.right {buf : List Byte} {p : Nat} {a b : List Byte} (h : At buf p (a ++ b)) : At buf (p + a.length) b := by
  obtain ⟨q, hq⟩ := h
  exact ⟨q, by rw [← List.drop_drop, hq, List.append_assoc, List.drop_left]⟩

theorem At.get {buf : List Byte} {p : Nat} {l : List Byte} (h : At buf p l) (k : Nat) (hk : k < l.length) :
    buf[p + k]? = l[k]? := by
  obtain ⟨q, hq⟩ := h
  rw [← List.getElem?_drop, hq, List.getElem?_append_left hk]

theorem At.le {buf : List Byte} {p : Nat} {l : List Byte} (h : At buf p l) (hl : l ≠ []) : p + l.length ≤ buf.length := by
  obtain ⟨q, hq⟩ := h
  have := congrArg List.length hq
  simp only [List.length_drop, List.length_append] at this
  have : 0 < l.length := List.length_pos_iff.mpr hl
  omega

theorem At.rd {buf : List Byte} {p : Nat} {l : List Byte} (h : At buf p l) (hl : l ≠ []) : rd buf p l.length = some l := by
  have hle := h.le hl
  obtain ⟨q, hq⟩ := h
  rw [rd_some hle, hq, List.take_left]

theorem toUInt8_toNat (n : Nat) (h : n < 256) : (n.toUInt8).toNat = n := by simp; omega

theorem be32_at {buf : List Byte} {p n : Nat} (h : At buf p (be4 n)) (hn : n < W32) : be32 buf p = some n := by
  have hW : W32 = 4294967296 := rfl
  have h0 := h.get 0 (by decide : 0 < 4)
  have h1 := h.get 1 (by decide : 1 < 4)
  have h2 := h.get 2 (by decide : 2 < 4)
  have h3 := h.get 3 (by decide : 3 < 4)
  simp only [be4, be3, be2, List.getElem?_cons_zero, List.getElem?_cons_succ, Nat.add_zero] at h0 h1 h2 h3
  simp only [be32, h0, h1, h2, h3, Option.bind_eq_bind, Option.bind_some]
  rw [toUInt8_toNat _ (by omega), toUInt8_toNat _ (by omega), toUInt8_toNat _ (by omega), toUInt8_toNat _ (by omega)]
  exact congrArg some (by omega)

theorem be16_at {buf : List Byte} {p n : Nat} (h : At buf p (be2 n)) (hn : n < 65536) : Dhcp6.be16 buf p = some n := by
  have h0 := h.get 0 (by decide : 0 < 2)
  have h1 := h.get 1 (by decide : 1 < 2)
  simp only [be2, List.getElem?_cons_zero, List.getElem?_cons_succ, Nat.add_zero] at h0 h1
  simp only [Dhcp6.be16, h0, h1, Option.bind_eq_bind, Option.bind_some]
  rw [toUInt8_toNat _ (by omega), toUInt8_toNat _ (by omega)]
  exact congrArg some (by omega)

theorem strnRead_ok {buf : List Byte} (n : Nat) : ∀ p, p + n ≤ buf.length → strnRead buf p n = some () := by
  induction n with
  | zero => intro p _; rfl
  | succ n ih =>
    intro p hp
    rw [strnRead, List.getElem?_eq_getElem (by omega)]
    simp only [Option.bind_some]
    split
    · rfl
    · exact ih _ (by omega)

theorem getSub_at {buf : List Byte} {q : Nat} (o : Opt) (ho : o.Ok) (h : At buf q o.bytes) (maxLen : Nat) (h4 : 4 < maxLen)
    (hl : 4 + o.data.length ≤ maxLen) : Dhcp6.getSubOption (buf.drop q) maxLen = some (some (o.code, o.data.length, 4)) := by
  have hd : At (buf.drop q) 0 o.bytes := by
    obtain ⟨r, hr⟩ := h; exact ⟨r, by rw [List.drop_zero, hr]⟩
  have hoc := ho.1
  have hol := ho.2
  rw [bytes_eq, put16_eq _ hoc, put16_eq _ (by omega)] at hd
  unfold Dhcp6.getSubOption
  rw [if_neg (by omega)]
  have e1 := be16_at hd.left.left hoc
  have e2 := be16_at (by simpa [be2] using hd.left.right) (show o.data.length < 65536 by omega)
  simp only [e1, e2, Option.bind_eq_bind, Option.bind_some]
  rw [if_neg (by omega)]

/-- What one sub-option does to the variables. -/
def absorb1 (now : Nat) : Sub → Ia → Ia
  | .addr a p v _, s => { s with addr := a, preferred := p, valid := v, addrCount := s.addrCount + 1 }
  | .status n _, s => { s with st := n, status := n }
  | .pfx p v n a _, s =>
    if p < v then { s with addr := a, preferred := p, valid := v, list := .pfx ⟨a, n, p, v, now + v⟩ :: s.list, prefixCount := s.prefixCount + 1 }
    else { s with addr := a, preferred := p, valid := v }
  | .other _, s => s

def absorb (now : Nat) (subs : List Sub) (s : Ia) : Ia := subs.foldl (fun s x => absorb1 now x s) s

theorem iaSub_at (now : Nat) {buf : List Byte} {q : Nat} (x : Sub) (hx : x.Ok) (h : At buf q x.opt.data) (s : Ia) :
    iaSub now buf x.opt.code x.opt.data.length q s = some (absorb1 now x s) := by
  cases x with
  | addr a p v m =>
    obtain ⟨_, ha, hp, hv⟩ := hx
    simp only [Sub.opt] at h ⊢
    have hane : a ≠ [] := by intro e; rw [e] at ha; simp at ha
    have e1 := h.left.left.left.rd hane
    have e2 := be32_at h.left.left.right hp
    have e3 := be32_at h.left.right hv
    simp only [List.length_append, be4_length, ha] at e1 e2 e3
    simp only [iaSub, if_true, e1, e2, e3, Option.bind_some]
    rfl
  | status n t =>
    obtain ⟨_, hn⟩ := hx
    simp only [Sub.opt] at h ⊢
    have e1 := be16_at h.left hn
    have hle := h.le (by simp [be2])
    simp only [List.length_append, show (be2 n).length = 2 from rfl] at hle
    unfold iaSub
    rw [if_neg (by decide), if_pos rfl, e1, Option.bind_some]
    simp only [List.length_append, show (be2 n).length = 2 from rfl]
    by_cases ht : 2 + t.length > 2
    · rw [if_pos ht, strnRead_ok _ _ (by omega)]; rfl
    · rw [if_neg ht]; rfl
  | pfx p v n a m =>
    obtain ⟨_, ha, hp, hv⟩ := hx
    simp only [Sub.opt] at h ⊢
    have hane : a ≠ [] := by intro e; rw [e] at ha; simp at ha
    have e1 := be32_at h.left.left.left.left hp
    have e2 := be32_at h.left.left.left.right hv
    have e3 := h.left.left.right.get 0 (by simp)
    have e4 := h.left.right.rd hane
    simp only [List.length_append, be4_length, ha, List.length_cons, List.length_nil, Nat.add_zero, List.getElem?_cons_zero] at e1 e2 e3 e4
    unfold iaSub
    rw [if_neg (by decide), if_neg (by decide), if_pos rfl, e1, Option.bind_some, e2, Option.bind_some]
    rw [show q + 8 = q + (4 + 4) by omega, e3, Option.bind_some, show q + 9 = q + (4 + 4 + (0 + 1)) by omega, e4, Option.bind_some]
    simp only [absorb1]
    split <;> rfl
  | other o =>
    obtain ⟨_, h1, h2, h3⟩ := hx
    simp only [Sub.opt] at h1 h2 h3 ⊢
    simp only [iaSub, h1, h2, h3, if_false, absorb1]

theorem Sub.ok_opt {x : Sub} (h : x.Ok) : x.opt.Ok := h.1

theorem iaLoop_ok (now : Nat) {buf : List Byte} (off len maxLen : Nat) (h4 : 4 < maxLen) (subs : List Sub) : ∀ (fuel pos : Nat) (s : Ia),
    subs ≠ [] → (∀ x ∈ subs, x.Ok) → At buf (off + pos) (enc (subs.map Sub.opt)) → pos + (enc (subs.map Sub.opt)).length = len →
    (enc (subs.map Sub.opt)).length ≤ maxLen → subs.length ≤ fuel →
    iaLoop now buf off len maxLen fuel pos s = some (absorb now subs s) := by
  induction subs with
  | nil => intro _ _ _ h; simp at h
  | cons x t ih =>
    intro fuel pos s _ hok hat hlen hmax hf
    simp only [List.length_cons] at hf
    obtain ⟨f, rfl⟩ : ∃ f, fuel = f + 1 := ⟨fuel - 1, by omega⟩
    have hx := hok x (by simp)
    simp only [List.map_cons, enc, List.length_append, bytes_length] at hat hlen hmax
    rw [iaLoop, getSub_at x.opt hx.1 hat.left maxLen h4 (by omega)]
    simp only [Option.bind_some]
    rw [if_neg (by omega)]
    have hdat : At buf (off + pos + 4) x.opt.data := by
      have := hat.left
      rw [bytes_eq] at this
      simpa [put16] using this.right
    rw [iaSub_at now x hx hdat s, Option.bind_some]
    by_cases ht : t = []
    · subst ht
      simp only [List.map_nil, enc, List.length_nil] at hlen
      rw [if_neg (by omega)]
      rfl
    · have hpos : 0 < (enc (t.map Sub.opt)).length := by
        cases t with
        | nil => simp at ht
        | cons a b => simp [enc, bytes_length]; omega
      rw [if_pos (by omega)]
      have hr := hat.right
      rw [bytes_length] at hr
      rw [ih f (pos + (2 + 2 + x.opt.data.length)) (absorb1 now x s) ht (fun y hy => hok y (by simp [hy]))
        (by rw [show off + (pos + (2 + 2 + x.opt.data.length)) = off + pos + (x.opt.data.length + 4) by omega]; exact hr)
        (by omega) (by omega) (by omega)]
      rfl

/-- The loop as `get_addresses` starts it. -/
theorem iaLoop_start (now : Nat) {buf : List Byte} (off pos : Nat) (subs : List Sub) (hne : subs ≠ []) (hok : ∀ x ∈ subs, x.Ok)
    (hat : At buf (off + pos) (enc (subs.map Sub.opt))) (s : Ia) :
    iaLoop now buf off (pos + (enc (subs.map Sub.opt)).length) (enc (subs.map Sub.opt)).length
      (pos + (enc (subs.map Sub.opt)).length) pos s = some (absorb now subs s) := by
  have hlen : ∀ l : List Sub, l.length * 4 ≤ (enc (l.map Sub.opt)).length := by
    intro l
    induction l with
    | nil => simp
    | cons y t ih => simp only [List.map_cons, enc, List.length_append, bytes_length, List.length_cons]; omega
  by_cases h4 : 4 < (enc (subs.map Sub.opt)).length
  · exact iaLoop_ok now off _ _ h4 subs _ pos s hne hok hat rfl (Nat.le_refl _) (by have := hlen subs; omega)
  · match subs, hne with
    | [x], _ =>
      simp only [List.map_cons, List.map_nil, enc, List.append_nil, bytes_length] at h4 ⊢
      have h0 : x.opt.data.length = 0 := by omega
      have hx := hok x (by simp)
      have habs : absorb now [x] s = s := by
        cases x with
        | addr a p v m => simp [Sub.opt, be4_length] at h0
        | status n t => simp [Sub.opt, be2] at h0
        | pfx p v n a m => simp [Sub.opt, be4_length] at h0
        | other o => rfl
      rw [habs, h0, show pos + (0 + 4) = (pos + 3) + 1 by omega, iaLoop]
      simp [Dhcp6.getSubOption]
    | x :: y :: t, _ =>
      have := hlen (x :: y :: t)
      simp only [List.length_cons] at this
      omega

/-- Without prefixes. -/
theorem absorb_addr (now : Nat) (subs : List Sub) : ∀ (s : Ia), (∀ x ∈ subs, x.isPfx = false) →
    (absorb now subs s).st = (lastStatus subs).getD s.st ∧ (absorb now subs s).status = (lastStatus subs).getD s.status ∧
    (absorb now subs s).list = s.list ∧ (absorb now subs s).prefixCount = s.prefixCount ∧
    (match lastAddr subs with
      | some (a, p, v) => (absorb now subs s).addr = a ∧ (absorb now subs s).preferred = p ∧ (absorb now subs s).valid = v ∧
          0 < (absorb now subs s).addrCount
      | none => (absorb now subs s).addrCount = s.addrCount ∧ (absorb now subs s).addr = s.addr ∧
          (absorb now subs s).preferred = s.preferred ∧ (absorb now subs s).valid = s.valid) := by
  have mono : ∀ (t : List Sub) (s : Ia), s.addrCount ≤ (absorb now t s).addrCount := by
    intro t
    induction t with
    | nil => intro s; exact Nat.le_refl _
    | cons x t ih =>
      intro s
      refine Nat.le_trans ?_ (ih (absorb1 now x s))
      cases x <;> simp only [absorb1] <;> (try split) <;> simp
  induction subs with
  | nil => intro s _; exact ⟨rfl, rfl, rfl, rfl, rfl, rfl, rfl, rfl⟩
  | cons x t ih =>
    intro s h
    obtain ⟨i1, i2, i3, i4, i5⟩ := ih (absorb1 now x s) (fun y hy => h y (by simp [hy]))
    have hc : absorb now (x :: t) s = absorb now t (absorb1 now x s) := rfl
    rw [hc]
    cases x with
    | addr a p v m =>
      refine ⟨by rw [i1]; rfl, by rw [i2]; rfl, by rw [i3]; rfl, by rw [i4]; rfl, ?_⟩
      simp only [lastAddr]
      cases hl : lastAddr t with
      | some r => rw [hl] at i5; exact i5
      | none =>
        rw [hl] at i5
        obtain ⟨j1, j2, j3, j4⟩ := i5
        have := mono t (absorb1 now (.addr a p v m) s)
        exact ⟨j2, j3, j4, by rw [j1]; simp [absorb1]⟩
    | status n u =>
      refine ⟨?_, ?_, by rw [i3]; rfl, by rw [i4]; rfl, i5⟩
      · rw [i1]; simp only [lastStatus]; cases lastStatus t <;> rfl
      · rw [i2]; simp only [lastStatus]; cases lastStatus t <;> rfl
    | pfx p v n a m => simp [Sub.isPfx] at h
    | other o => exact ⟨i1, i2, i3, i4, i5⟩

/-- Without addresses. -/
theorem absorb_pfx (now : Nat) (subs : List Sub) : ∀ (s : Ia), (∀ x ∈ subs, x.isAddr = false) →
    (absorb now subs s).status = (lastStatus subs).getD s.status ∧
    (absorb now subs s).addrCount = s.addrCount ∧
    (absorb now subs s).list = (usable now subs).reverse ++ s.list ∧
    (absorb now subs s).prefixCount = s.prefixCount + (usable now subs).length := by
  induction subs with
  | nil => intro s _; exact ⟨rfl, rfl, rfl, rfl⟩
  | cons x t ih =>
    intro s h
    obtain ⟨i1, i2, i3, i4⟩ := ih (absorb1 now x s) (fun y hy => h y (by simp [hy]))
    have hc : absorb now (x :: t) s = absorb now t (absorb1 now x s) := rfl
    rw [hc]
    cases x with
    | addr a p v m => simp [Sub.isAddr] at h
    | status n u =>
      refine ⟨?_, by rw [i2]; rfl, by rw [i3]; rfl, by rw [i4]; rfl⟩
      rw [i1]; simp only [lastStatus]; cases lastStatus t <;> rfl
    | pfx p v n a m =>
      by_cases hpv : p < v
      · simp only [absorb1, if_pos hpv] at i1 i2 i3 i4 ⊢
        refine ⟨i1, i2, ?_, ?_⟩
        · rw [i3]; simp [usable, prefixes, hpv]
        · rw [i4]; simp [usable, prefixes, hpv]; omega
      · simp only [absorb1, if_neg hpv] at i1 i2 i3 i4 ⊢
        refine ⟨i1, i2, ?_, ?_⟩
        · rw [i3]; simp [usable, prefixes, hpv]
        · rw [i4]; simp [usable, prefixes, hpv]
    | other o => exact ⟨i1, i2, i3, i4⟩

end Verif.Client6
