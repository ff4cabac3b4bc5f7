import Verif.Spec.RtspBus
import Verif.Proof.RtspSame
/-! The steps of the RTSP bus, grouped by what they change: helper lemmas. -/
namespace Verif.RtspBus
open Verif.C Verif.Rtsp Verif.RtspBus.Spec

/-- Nothing but a return value, the arrival of a reply nobody waits for, or a cancellation of nothing. -/
inductive Neutral (s : St) : List Event → Prop
  | nil : Neutral s []
  | ret (r : Int) : Neutral s [.ret r]
  | arrived (c : Nat) (h : s.lookup c = none) : Neutral s [.arrived c]
  | cancel (c : Nat) (h : s.lookup c = none ∨ c = 0) : Neutral s [.cancel c]

/-- Why a call leaves the queue or the table. -/
inductive Why (s : St) (id : Nat) (it : Item) : Item → List Event → Prop
  | cancel (h : s.lookup it.msg.cookie = some id) : Why s id it it [.cancel it.msg.cookie]
  | reply (h : s.lookup it.msg.cookie = some id) (hl : ∃ c, it.msg.cookie = local_ c) (hd : s.dead = false) :
      Why s id it it (.arrived it.msg.cookie :: complete id it (some it.msg.cookie))
  | timeout (h : it.timer = true) : Why s id it { it with timer := false } (complete id it none)

/-- The effects a step can have. -/
inductive Tr (mv : Moves) (s : St) : St → List Event → Prop
  | idle (c' : Nat) (evs : List Event) (h : Neutral s evs) (hc : c' = s.cookies ∨ ∃ n, c' = advance n s.cookies) :
      Tr mv s { s with cookies := c' } evs
  | create (m : Msg) : Tr mv s { s with
      next := s.next + 1
      heap := fun j => if j = s.next then some ⟨m, false, 0, false, false, false, false⟩ else s.heap j } []
  | setCookie (id : Nat) (it : Item) (c : Nat) (h : s.heap id = some it) :
      Tr mv s (s.mod id (fun it => { it with msg := (setCookie it.msg c).2 })) [.ret (setCookie it.msg c).1]
  | sealed (id : Nat) (it : Item) (r : Int × Nat × Msg) (e : Int) (h : s.heap id = some it) (hr : sealMsg mv s.cookies it.msg = some r) :
      Tr mv s ({ s with cookies := r.2.1 }.mod id (fun it => { it with msg := r.2.2 })) [.ret e]
  | refuse (id : Nat) (it : Item) (r : Int × Nat × Msg) (cb : Bool) (h : s.heap id = some it)
      (h1 : it.isOutgoing = false) (h2 : it.isWaiting = false) (h3 : it.msg.isUsed = false)
      (hr : sealMsg mv s.cookies it.msg = some r) :
      Tr mv s ({ s with cookies := r.2.1 }.mod id (fun it => { it with msg := { r.2.2 with isUsed := true }, cb := cb })) [.ret (-EINVAL)]
  | queue (id : Nat) (it : Item) (r : Int × Nat × Msg) (raw : List Byte) (cb : Bool) (place : Nat) (h : s.heap id = some it)
      (h1 : it.isOutgoing = false) (h2 : it.isWaiting = false) (h3 : it.msg.isUsed = false) (h4 : it.msg.cookie ≠ 0)
      (hr : sealMsg mv s.cookies it.msg = some r) (h5 : ¬ r.1 < 0) (h6 : r.2.2.raw = some raw) (hd : s.dead = false)
      (h7 : isRemote r.2.2.cookie = true → r.2.2.type = .unknown ∨ r.2.2.type = .reply)
      (h8 : isRemote r.2.2.cookie = false → r.2.2.type ≠ .reply) :
      Tr mv s (linkOutgoing (linkWaiting ({ s with cookies := r.2.1 }.mod id
        (fun it => { it with msg := { r.2.2 with isUsed := true }, cb := cb })) id place) id) [.queued id r.2.2.cookie raw cb, .ret 0]
  | dropOut (id : Nat) (it it' : Item) (evs : List Event) (h : s.heap id = some it) (hw : it.isWaiting = true)
      (h1 : it.isSending = false) (h2 : it.isOutgoing = true) (hy : Why s id it it' evs) :
      Tr mv s { s with heap := fun j => if j = id then some { it' with isOutgoing := false, isSending := false } else s.heap j, outgoing := s.outgoing.erase id } evs
  | dropWait (id : Nat) (it it' : Item) (evs : List Event) (h : s.heap id = some it) (hw : it.isWaiting = true)
      (h1 : it.isSending = true ∨ it.isOutgoing = false) (hy : Why s id it it' evs) :
      Tr mv s { s with heap := fun j => if j = id then some { it' with isWaiting := false, timer := false } else s.heap j,
                       waiting := s.waiting.eraseP (fun j => s.hasCookie j it.msg.cookie) } evs
  | block (id : Nat) (rest : List Nat) (it : Item) (ho : s.outgoing = id :: rest) (h : s.heap id = some it) (ha : s.attached = true) :
      Tr mv s (s.mod id (fun it => { it with isSending := true })) [.wrote id []]
  | part (id : Nat) (rest : List Nat) (it : Item) (n : Nat) (ho : s.outgoing = id :: rest) (h : s.heap id = some it)
      (hn : it.sent + n < (it.msg.raw.getD []).length) (ha : s.attached = true) :
      Tr mv s (s.mod id (fun it => { it with isSending := true, sent := it.sent + n })) [.wrote id (((it.msg.raw.getD []).drop it.sent).take n)]
  | fullWait (id : Nat) (rest : List Nat) (it : Item) (ho : s.outgoing = id :: rest) (h : s.heap id = some it)
      (hc : it.cb = false) (hw : it.isWaiting = true) (ha : s.attached = true) :
      Tr mv s { s with heap := fun j => if j = id then some { it with isSending := true, sent := it.sent + ((it.msg.raw.getD []).length - it.sent), isWaiting := false, timer := false } else s.heap j,
                       waiting := s.waiting.eraseP (fun j => s.hasCookie j it.msg.cookie) } [.wrote id ((it.msg.raw.getD []).drop it.sent)]
  | fullOut (id : Nat) (rest : List Nat) (it : Item) (ho : s.outgoing = id :: rest) (h : s.heap id = some it) (ha : s.attached = true)
      (hc : it.cb = true ∨ it.isWaiting = false) :
      Tr mv s { s with heap := fun j => if j = id then some { it with isSending := false, isOutgoing := false, sent := it.sent + ((it.msg.raw.getD []).length - it.sent) } else s.heap j,
                       outgoing := rest } [.wrote id ((it.msg.raw.getD []).drop it.sent)]
  | timers (att : Bool) (T : Nat → Item → Bool)
      (hT : ∀ j it, s.heap j = some it → T j it = true → it.timer = true ∨ (it.isWaiting = true ∧ it.cb = true ∧ att = true))
      (hU : att = false → s.attached = true → ∀ j it, j ∈ s.waiting → T j it = false) (hd : s.dead = true → att = true → s.attached = true) :
      Tr mv s { s with attached := att, heap := fun j => (s.heap j).map fun it => { it with timer := T j it } } []
  | hup (T : Nat → Item → Bool) (hT : ∀ j it, s.heap j = some it → T j it = true → it.timer = true ∧ j ∉ s.waiting)
      (hd : s.dead = false) :
      Tr mv s { s with attached := false, dead := true, heap := fun j => (s.heap j).map fun it => { it with timer := T j it } } [.hup]

theorem mod_heap (s : St) (id : Nat) (f : Item → Item) (j : Nat) : (s.mod id f).heap j = if j = id then (s.heap j).map f else s.heap j := rfl

theorem mod_eq (s : St) (id : Nat) (f : Item → Item) (it : Item) (h : s.heap id = some it) :
    s.mod id f = { s with heap := fun j => if j = id then some (f it) else s.heap j } := by
  unfold St.mod
  congr 1
  funext j
  split
  · rename_i e; subst e; rw [h]; rfl
  · rfl

theorem hasCookie_iff (s : St) (j c : Nat) : s.hasCookie j c = true ↔ ∃ it, s.heap j = some it ∧ it.msg.cookie = c := by
  unfold St.hasCookie
  cases s.heap j with
  | none => simp
  | some it => simp

/-- Whether a message has a cookie depends on the heap only, and only on the cookies in it. -/
theorem hasCookie_congr (s s1 : St) (h : ∀ j, (s1.heap j).map (fun it => it.msg.cookie) = (s.heap j).map (fun it => it.msg.cookie)) (j c : Nat) :
    s1.hasCookie j c = s.hasCookie j c := by
  have := h j
  rw [Bool.eq_iff_iff, hasCookie_iff, hasCookie_iff]
  constructor
  · rintro ⟨it, h1, h2⟩
    rw [h1] at this
    cases h3 : s.heap j with
    | none => rw [h3] at this; cases this
    | some x => rw [h3] at this; exact ⟨x, rfl, by have := Option.some.inj this; simp only at this; rw [← this]; exact h2⟩
  · rintro ⟨it, h1, h2⟩
    rw [h1] at this
    cases h3 : s1.heap j with
    | none => rw [h3] at this; cases this
    | some x => rw [h3] at this; exact ⟨x, rfl, by have := Option.some.inj this; simp only at this; rw [this]; exact h2⟩

theorem lookup_some (s : St) (c id : Nat) (h : s.lookup c = some id) : id ∈ s.waiting ∧ ∃ it, s.heap id = some it ∧ it.msg.cookie = c := by
  unfold St.lookup at h
  exact ⟨List.mem_of_find?_eq_some h, (hasCookie_iff _ _ _).mp (List.find?_some (p := fun j => s.hasCookie j c) h)⟩

theorem twice (id : Nat) (a b : Option Item) (f : Nat → Option Item) :
    (fun j => if j = id then a else if j = id then b else f j) = fun j => if j = id then a else f j := by
  funext j
  split
  · rfl
  · rfl

/-- Dropping a message, spelled out. -/
theorem drop_tr (mv : Moves) (s : St) (id : Nat) (it it' : Item) (evs : List Event) (h : s.heap id = some it) (hw : it.isWaiting = true)
    (hy : Why s id it it' evs) (s1 : St) (hs : s1 = { s with heap := fun j => if j = id then some it' else s.heap j }) :
    Tr mv s (drop s1 id it') evs := by
  have h1 : s1.heap id = some it' := by rw [hs]; exact if_pos rfl
  have e : it'.isSending = it.isSending ∧ it'.isOutgoing = it.isOutgoing ∧ it'.isWaiting = it.isWaiting ∧ it'.msg = it.msg := by
    cases hy <;> exact ⟨rfl, rfl, rfl, rfl⟩
  obtain ⟨e1, e2, e3, e4⟩ := e
  unfold drop
  split
  · rename_i hh
    have := Tr.dropOut (mv := mv) id it it' evs h hw (by rw [← e1]; exact hh.1) (by rw [← e2]; exact hh.2) hy
    unfold unlinkOutgoing
    rw [mod_eq s1 id _ it' h1, hs]
    simp only [twice]
    exact this
  · rename_i hh
    rw [if_pos (by rw [e3]; exact hw)]
    have hso : it.isSending = true ∨ it.isOutgoing = false := by
      rw [e1, e2] at hh
      cases ha : it.isSending
      · right
        cases hb : it.isOutgoing
        · rfl
        · exact absurd ⟨ha, hb⟩ hh
      · exact Or.inl rfl
    have := Tr.dropWait (mv := mv) id it it' evs h hw hso hy
    have hck : ∀ j c, s1.hasCookie j c = s.hasCookie j c := by
      apply hasCookie_congr
      intro j
      rw [hs]
      show Option.map _ (if j = id then some it' else s.heap j) = _
      split
      · rename_i ej; subst ej
        rw [h]; simp only [Option.map_some, e4]
      · rfl
    unfold unlinkWaiting
    simp only [hck]
    rw [mod_eq s1 id _ it' h1]
    rw [hs]
    simp only [twice, e4]
    simp only [e4] at this
    exact this

theorem drop_tr' (mv : Moves) (s : St) (id : Nat) (it : Item) (evs : List Event) (h : s.heap id = some it) (hw : it.isWaiting = true)
    (hy : Why s id it it evs) : Tr mv s (drop s id it) evs := by
  apply drop_tr mv s id it it evs h hw hy
  cases s
  congr 1
  funext j
  split
  · rename_i e; subst e; exact h
  · rfl

theorem stale_false (s : St) (h : s.stale = false) (j : Nat) (hj : j ∈ s.waiting) (it : Item) (hi : s.heap j = some it) : it.isWaiting = true := by
  unfold St.stale at h
  rw [List.any_eq_false] at h
  have := h j hj
  rw [hi] at this
  simpa using this

theorem call_tr (mv : Moves) (s : St) (id : Nat) (it : Item) (cb : Bool) (place : Nat) (h : s.heap id = some it) (r : St × List Event)
    (hr : callAsync mv s id it cb place = some r) : Tr mv s r.1 r.2 := by
  unfold callAsync at hr
  split at hr
  · cases hr; exact Tr.idle s.cookies _ (.ret _) (Or.inl rfl)
  · rename_i hd
    split at hr
    · cases hr; exact Tr.idle s.cookies _ (.ret _) (Or.inl rfl)
    · rename_i hu
      simp only [Option.bind_eq_bind, Option.bind_eq_some_iff] at hr
      obtain ⟨x, hx, hr⟩ := hr
      have h1 : it.isOutgoing = false := by cases e : it.isOutgoing; rfl; exact absurd (Or.inl e) hu
      have h2 : it.isWaiting = false := by cases e : it.isWaiting; rfl; exact absurd (Or.inr (Or.inl e)) hu
      have h3 : it.msg.isUsed = false := by cases e : it.msg.isUsed; rfl; exact absurd (Or.inr (Or.inr e)) hu
      have h4 : it.msg.cookie ≠ 0 := fun e => hd (Or.inr e)
      have h5 : s.dead = false := by cases e : s.dead; rfl; exact absurd (Or.inl e) hd
      split at hr
      · cases hr
        exact Tr.sealed id it x x.1 h hx
      · rename_i hneg
        split at hr
        · cases hr
          exact Tr.sealed id it x (-EINVAL) h hx
        · rename_i raw hraw
          split at hr
          · cases hr
            exact Tr.refuse id it x cb h h1 h2 h3 hx
          · rename_i hrem
            split at hr
            · cases hr
              exact Tr.refuse id it x cb h h1 h2 h3 hx
            · rename_i hloc
              cases hr
              refine Tr.queue id it x raw cb place h h1 h2 h3 h4 hx hneg hraw h5 ?_ ?_
              · intro e
                by_cases a : x.2.2.type = .unknown
                · exact Or.inl a
                · by_cases b : x.2.2.type = .reply
                  · exact Or.inr b
                  · exact absurd ⟨e, a, b⟩ hrem
              · intro e a
                exact hloc ⟨e, a⟩

theorem write_tr (mv : Moves) (s : St) (res : Option Nat) (ha : s.attached = true) (r : St × List Event) (hr : write s res = some r) : Tr mv s r.1 r.2 := by
  unfold write at hr
  split at hr
  · cases hr; exact Tr.idle s.cookies _ .nil (Or.inl rfl)
  · rename_i id rest ho
    simp only [Option.bind_eq_bind, Option.bind_eq_some_iff] at hr
    obtain ⟨it, hit, hr⟩ := hr
    cases hr
    unfold writeMessage
    cases res with
    | none => exact Tr.block id rest it ho hit ha
    | some n =>
      simp only
      split
      · rename_i hlt
        exact Tr.part id rest it (min n ((it.msg.raw.getD []).length - it.sent)) ho hit hlt ha
      · rename_i hge
        have hm : min n ((it.msg.raw.getD []).length - it.sent) = (it.msg.raw.getD []).length - it.sent := by omega
        have ht : List.take ((it.msg.raw.getD []).length - it.sent) ((it.msg.raw.getD []).drop it.sent) = (it.msg.raw.getD []).drop it.sent := by
          apply List.take_of_length_le
          rw [List.length_drop]
          exact Nat.le_refl _
        simp only [hm, ht]
        have hmod := mod_eq s id (fun it => { it with isSending := true, sent := it.sent + ((it.msg.raw.getD []).length - it.sent) }) it hit
        split
        · rename_i hc
          have := Tr.fullWait (mv := mv) id rest it ho hit hc.1 hc.2 ha
          have e := mod_eq s id (fun x => { x with isSending := true, sent := x.sent + ((it.msg.raw.getD []).length - it.sent) }) it hit
          rw [e]
          unfold unlinkWaiting
          have hck : ∀ j c, ({ s with heap := fun j => if j = id then some { it with isSending := true, sent := it.sent + ((it.msg.raw.getD []).length - it.sent) } else s.heap j } : St).hasCookie j c = s.hasCookie j c := by
            apply hasCookie_congr
            intro j
            show Option.map _ (if j = id then some _ else s.heap j) = _
            split
            · rename_i ej; subst ej; rw [hit]; rfl
            · rfl
          simp only [hck]
          rw [mod_eq _ id _ { it with isSending := true, sent := it.sent + ((it.msg.raw.getD []).length - it.sent) } (if_pos rfl)]
          simp only [twice]
          exact this
        · rename_i hc
          have hc' : it.cb = true ∨ it.isWaiting = false := by
            cases a : it.cb
            · right
              cases b : it.isWaiting
              · rfl
              · exact absurd ⟨a, b⟩ hc
            · exact Or.inl rfl
          have := Tr.fullOut (mv := mv) id rest it ho hit ha hc'
          have e := mod_eq s id (fun x => { x with isSending := true, sent := x.sent + ((it.msg.raw.getD []).length - it.sent) }) it hit
          rw [e]
          unfold unlinkOutgoing
          rw [mod_eq _ id _ { it with isSending := true, sent := it.sent + ((it.msg.raw.getD []).length - it.sent) } (if_pos rfl)]
          have he : s.outgoing.erase id = rest := by rw [ho]; exact List.erase_cons_head ..
          simp only [twice, he]
          exact this

theorem attach_tr (mv : Moves) (s s' : St) (h : attach s = some s') : Tr mv s s' [] := by
  unfold attach at h
  split at h
  · cases h; exact Tr.idle s.cookies _ .nil (Or.inl rfl)
  · rename_i hd
    split at h
    · cases h
    · rename_i hst
      cases h
      have := Tr.timers (mv := mv) (s := s) true (fun j it => if j ∈ s.waiting ∧ it.cb = true then true else it.timer) (by
        intro j it hit ht
        split at ht
        · rename_i hj; exact Or.inr ⟨stale_false s (by simpa using hst) j hj.1 it hit, hj.2, rfl⟩
        · exact Or.inl ht) (by intro e; cases e) (by intro e; exact absurd (Or.inl e) hd)
      have e : (fun j => (s.heap j).map fun it => ({ it with timer := if j ∈ s.waiting ∧ it.cb = true then true else it.timer } : Item)) =
          fun j => (s.heap j).map fun it => if j ∈ s.waiting ∧ it.cb = true then { it with timer := true } else it := by
        funext j
        congr 1
        funext it
        split <;> rfl
      rw [e] at this
      exact this

theorem detach_form (s s' : St) (h : detach s = some s') (ha : s.attached = true) :
    s' = { s with attached := false, heap := fun j => (s.heap j).map fun it => { it with timer := if j ∈ s.waiting then false else it.timer } } := by
  unfold detach at h
  rw [if_neg (by rw [ha]; intro e; cases e)] at h
  split at h
  · cases h
  · cases h
    congr 1
    funext j
    congr 1
    funext it
    split <;> rfl

theorem step_tr (mv : Moves) (s : St) (hti : ∀ j it, s.heap j = some it → it.timer = true → it.isWaiting = true) (o : Op) (r : St × List Event)
    (h : step mv s o = some r) : Tr mv s r.1 r.2 := by
  unfold step at h
  cases o with
  | create m => cases h; exact Tr.create m
  | setCookie id c =>
    simp only at h
    split at h
    · cases h; exact Tr.idle s.cookies _ .nil (Or.inl rfl)
    · rename_i it hit; cases h; exact Tr.setCookie id it c hit
  | sealIt id =>
    simp only at h
    split at h
    · cases h; exact Tr.idle s.cookies _ .nil (Or.inl rfl)
    · rename_i it hit
      simp only [Option.bind_eq_bind, Option.bind_eq_some_iff] at h
      obtain ⟨x, hx, h⟩ := h
      cases h; exact Tr.sealed id it x x.1 hit hx
  | callAsync id cb place =>
    simp only at h
    split at h
    · cases h; exact Tr.idle s.cookies _ .nil (Or.inl rfl)
    · rename_i it hit; exact call_tr mv s id it cb place hit r h
  | cancel c =>
    simp only at h
    unfold cancel at h
    split at h
    · rename_i h0; cases h; exact Tr.idle s.cookies _ (.cancel c (Or.inr h0)) (Or.inl rfl)
    · split at h
      · rename_i hl; cases h; exact Tr.idle s.cookies _ (.cancel c (Or.inl hl)) (Or.inl rfl)
      · rename_i id hl
        simp only [Option.bind_eq_bind, Option.bind_eq_some_iff] at h
        obtain ⟨it, hit, h⟩ := h
        split at h
        · rename_i hw
          cases h
          obtain ⟨_, x, hx, hc⟩ := lookup_some s c id hl
          rw [hit] at hx; cases hx
          subst hc
          exact drop_tr' mv s id it _ hit hw (.cancel hl)
        · cases h
  | reply c =>
    simp only at h
    split at h
    · cases h; exact Tr.idle s.cookies _ .nil (Or.inl rfl)
    · rename_i hd
      unfold reply at h
      split at h
      · rename_i hl; cases h; exact Tr.idle s.cookies _ (.arrived _ hl) (Or.inl rfl)
      · rename_i id hl
        simp only [Option.bind_eq_bind, Option.bind_eq_some_iff] at h
        obtain ⟨it, hit, h⟩ := h
        split at h
        · rename_i hw
          cases h
          obtain ⟨_, x, hx, hc⟩ := lookup_some s _ id hl
          rw [hit] at hx; cases hx
          rw [← hc] at hl ⊢
          exact drop_tr' mv s id it _ hit hw (.reply hl ⟨c, hc⟩ (by simpa using hd))
        · cases h
  | used n => cases h; exact Tr.idle _ _ .nil (Or.inr ⟨n, rfl⟩)
  | write res =>
    simp only at h
    split at h
    · rename_i ha; exact write_tr mv s res ha r h
    · cases h; exact Tr.idle s.cookies _ .nil (Or.inl rfl)
  | timeout id =>
    simp only at h
    split at h
    · cases h; exact Tr.idle s.cookies _ .nil (Or.inl rfl)
    · rename_i it hit
      split at h
      · rename_i ht
        cases h
        unfold timeout
        exact drop_tr mv s id it { it with timer := false } _ hit (hti id it hit ht) (.timeout ht) _ (mod_eq s id _ it hit)
      · cases h; exact Tr.idle s.cookies _ .nil (Or.inl rfl)
  | attach =>
    simp only [Option.map_eq_some_iff] at h
    obtain ⟨s', hs, h⟩ := h
    cases h; exact attach_tr mv s s' hs
  | detach =>
    simp only [Option.map_eq_some_iff] at h
    obtain ⟨s', hs, h⟩ := h
    cases h
    by_cases ha : s.attached = true
    · rw [detach_form s s' hs ha]
      refine Tr.timers false (fun j it => if j ∈ s.waiting then false else it.timer) ?_ ?_ (by intro _ e; cases e)
      · intro j it _ ht
        split at ht
        · cases ht
        · exact Or.inl ht
      · intro _ _ j it hj
        exact if_pos hj
    · unfold detach at hs
      rw [if_pos (by simpa using ha)] at hs
      cases hs
      exact Tr.idle s.cookies _ .nil (Or.inl rfl)
  | hup =>
    simp only at h
    split at h
    · rename_i ha
      unfold hup at h
      split at h
      · cases h; exact Tr.idle s.cookies _ .nil (Or.inl rfl)
      · rename_i hd
        simp only [Option.map_eq_some_iff] at h
        obtain ⟨s', hs, h⟩ := h
        cases h
        rw [detach_form s s' hs ha]
        refine Tr.hup (fun j it => if j ∈ s.waiting then false else it.timer) ?_ (by simpa using hd)
        intro j it _ ht
        split at ht
        · cases ht
        · rename_i hj; exact ⟨ht, hj⟩
    · cases h; exact Tr.idle s.cookies _ .nil (Or.inl rfl)

end Verif.RtspBus
