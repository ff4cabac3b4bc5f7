import Verif.Proof.RtspBus
/-! The invariant of the RTSP bus: helper lemmas. -/
namespace Verif.RtspBus
open Verif.C Verif.Rtsp Verif.RtspBus.Spec

/-- The bytes of a message. -/
def Item.bytes (it : Item) : List Byte := it.msg.raw.getD []

/-- What always holds of a message. -/
structure ItemOk (out : List Nat) (j : Nat) (it : Item) : Prop where
  w : it.isWaiting = true → it.msg.isUsed = true ∧ it.msg.isSealed = true
  t : it.timer = true → it.isWaiting = true ∧ it.cb = true
  o : it.isOutgoing = true → it.msg.isUsed = true ∧ it.msg.isSealed = true
  oi : it.isOutgoing = true ↔ j ∈ out
  sd : it.isSending = true → out.head? = some j
  se : 0 < it.sent → it.msg.isUsed = true ∧ it.msg.isSealed = true
  sq : 0 < it.sent → it.isOutgoing = true → it.isSending = true
  sl : it.sent ≤ it.bytes.length

/-- What always holds of the bus. -/
structure Inv (s : St) : Prop where
  fresh : ∀ j, s.next ≤ j → s.heap j = none
  item : ∀ j it, s.heap j = some it → ItemOk s.outgoing j it
  nodup : s.outgoing.Nodup
  outs : ∀ j ∈ s.outgoing, ∃ it, s.heap j = some it
  waits : ∀ j ∈ s.waiting, ∃ it, s.heap j = some it

theorem inv_init : Inv init := ⟨fun _ _ => rfl, (fun _ _ h => by cases h), List.nodup_nil, (fun _ h => by cases h), (fun _ h => by cases h)⟩

theorem ItemOk.sending {out : List Nat} {j : Nat} {it : Item} (h : ItemOk out j it) (hs : it.isSending = true) : it.isOutgoing = true := by
  rw [h.oi]
  exact List.mem_of_head? (h.sd hs)

/-- An unsealed message is in no queue. -/
theorem ItemOk.unsealed {out : List Nat} {j : Nat} {it : Item} (h : ItemOk out j it) (hs : it.msg.isSealed = false) :
    it.isWaiting = false ∧ it.timer = false ∧ it.isOutgoing = false ∧ it.isSending = false ∧ it.sent = 0 := by
  have a : it.isWaiting = false := by
    cases e : it.isWaiting
    · rfl
    · have := (h.w e).2; rw [hs] at this; cases this
  have b : it.isOutgoing = false := by
    cases e : it.isOutgoing
    · rfl
    · have := (h.o e).2; rw [hs] at this; cases this
  refine ⟨a, ?_, b, ?_, ?_⟩
  · cases e : it.timer
    · rfl
    · have := (h.t e).1; rw [a] at this; cases this
  · cases e : it.isSending
    · rfl
    · have := h.sending e; rw [b] at this; cases this
  · cases e : it.sent with
    | zero => rfl
    | succ n => have := (h.se (by omega)).2; rw [hs] at this; cases this

/-- A message that was never used is in no queue. -/
theorem ItemOk.unused {out : List Nat} {j : Nat} {it : Item} (h : ItemOk out j it) (hs : it.msg.isUsed = false) :
    it.isWaiting = false ∧ it.timer = false ∧ it.isOutgoing = false ∧ it.isSending = false ∧ it.sent = 0 := by
  have a : it.isWaiting = false := by
    cases e : it.isWaiting
    · rfl
    · have := (h.w e).1; rw [hs] at this; cases this
  have b : it.isOutgoing = false := by
    cases e : it.isOutgoing
    · rfl
    · have := (h.o e).1; rw [hs] at this; cases this
  refine ⟨a, ?_, b, ?_, ?_⟩
  · cases e : it.timer
    · rfl
    · have := (h.t e).1; rw [a] at this; cases this
  · cases e : it.isSending
    · rfl
    · have := h.sending e; rw [b] at this; cases this
  · cases e : it.sent with
    | zero => rfl
    | succ n => have := (h.se (by omega)).1; rw [hs] at this; cases this

/-- A message in no queue is fine. -/
theorem ItemOk.idle {out : List Nat} {j : Nat} {it : Item} (a : it.isWaiting = false) (b : it.timer = false) (c : it.isOutgoing = false)
    (d : it.isSending = false) (e : it.sent = 0) (hj : j ∉ out) : ItemOk out j it := by
  constructor
  · intro h; rw [a] at h; cases h
  · intro h; rw [b] at h; cases h
  · intro h; rw [c] at h; cases h
  · rw [c]; constructor
    · intro h; cases h
    · intro h; exact absurd h hj
  · intro h; rw [d] at h; cases h
  · intro h; rw [e] at h; cases h
  · intro h; rw [e] at h; cases h
  · rw [e]; exact Nat.zero_le _

/-- Replacing one message and the queue. -/
theorem Inv.put {s : St} (hi : Inv s) (id : Nat) (x : Item) (s' : St) (it : Item) (h : s.heap id = some it)
    (hh : s'.heap = fun j => if j = id then some x else s.heap j) (hn : s'.next = s.next)
    (ho : ∀ j y, j ≠ id → ItemOk s.outgoing j y → ItemOk s'.outgoing j y)
    (hx : ItemOk s'.outgoing id x) (hnd : s'.outgoing.Nodup)
    (hos : ∀ j ∈ s'.outgoing, j = id ∨ j ∈ s.outgoing) (hws : ∀ j ∈ s'.waiting, j = id ∨ j ∈ s.waiting) : Inv s' := by
  refine ⟨?_, ?_, hnd, ?_, ?_⟩
  · intro j hj
    rw [hh]
    simp only
    rw [if_neg]
    · exact hi.fresh j (by omega)
    · intro e; subst e
      rw [hi.fresh j (by omega)] at h; cases h
  · intro j y hy
    rw [hh] at hy
    simp only at hy
    split at hy
    · rename_i e; subst e; cases hy; exact hx
    · rename_i e; exact ho j y e (hi.item j y hy)
  · intro j hj
    rw [hh]
    simp only
    split
    · exact ⟨x, rfl⟩
    · rename_i e
      rcases hos j hj with e' | e'
      · exact absurd e' e
      · exact hi.outs j e'
  · intro j hj
    rw [hh]
    simp only
    split
    · exact ⟨x, rfl⟩
    · rename_i e
      rcases hws j hj with e' | e'
      · exact absurd e' e
      · exact hi.waits j e'

theorem heap_mod (s : St) (id : Nat) (f : Item → Item) (it : Item) (h : s.heap id = some it) :
    (s.mod id f).heap = fun j => if j = id then some (f it) else s.heap j := by
  rw [mod_eq s id f it h]

theorem ItemOk.congr {out : List Nat} {j : Nat} {it : Item} (h : ItemOk out j it) (x : Item)
    (a : x.msg = it.msg) (b : x.sent = it.sent) (c : x.isOutgoing = it.isOutgoing) (d : x.isWaiting = it.isWaiting) (e : x.isSending = it.isSending)
    (t : x.timer = true → x.isWaiting = true ∧ x.cb = true) : ItemOk out j x := by
  constructor
  · rw [d, a]; exact h.w
  · exact t
  · rw [c, a]; exact h.o
  · rw [c]; exact h.oi
  · rw [e]; exact h.sd
  · rw [b, a]; exact h.se
  · rw [b, c, e]; exact h.sq
  · unfold Item.bytes; rw [b, a]; exact h.sl

theorem ItemOk.erase {out : List Nat} {j id : Nat} {it : Item} (hn : j ≠ id) (h : ItemOk out j it) : ItemOk (out.erase id) j it := by
  refine ⟨h.w, h.t, h.o, ?_, ?_, h.se, h.sq, h.sl⟩
  · rw [h.oi, List.mem_erase_of_ne hn]
  · intro hs
    have := h.sd hs
    cases out with
    | nil => cases this
    | cons a t =>
      simp only [List.head?_cons, Option.some.injEq] at this
      subst this
      rw [List.erase_cons_tail (by simpa using hn)]
      rfl

theorem setCookie_sealed (m : Msg) (c : Nat) (h : m.isSealed = true) : (Rtsp.setCookie m c).2 = m := by
  unfold Rtsp.setCookie
  rw [if_pos h]

theorem seal_same (mv : Moves) (ck : Nat) (m : Msg) (r : Int × Nat × Msg) (h : sealMsg mv ck m = some r) (hs : m.isSealed = true) :
    r.2.2 = m ∧ r.2.1 = ck := by
  unfold sealMsg at h
  rw [if_pos hs] at h
  cases h; exact ⟨rfl, rfl⟩

/-- Changing only the message of an item that is not sealed, or not at all. -/
theorem Inv.msg {s : St} (hi : Inv s) (id : Nat) (it : Item) (h : s.heap id = some it) (m : Msg) (cb : Bool) (c : Nat)
    (hm : it.msg.isSealed = false ∨ it.msg.isUsed = false ∨ (m = it.msg ∧ cb = it.cb)) :
    Inv ({ s with cookies := c, heap := fun j => if j = id then some { it with msg := m, cb := cb } else s.heap j }) := by
  have ok := hi.item id it h
  refine hi.put id { it with msg := m, cb := cb } _ it h rfl rfl (fun j y _ hy => hy) ?_ hi.nodup (fun j hj => Or.inr hj) (fun j hj => Or.inr hj)
  rcases hm with hm | hm | hm
  · obtain ⟨a, b, c, d, e⟩ := ok.unsealed hm
    exact ItemOk.idle a b c d e (by intro hj; rw [ok.oi.mpr hj] at c; cases c)
  · obtain ⟨a, b, c, d, e⟩ := ok.unused hm
    exact ItemOk.idle a b c d e (by intro hj; rw [ok.oi.mpr hj] at c; cases c)
  · obtain ⟨rfl, rfl⟩ := hm
    exact ok

theorem queue_heap (s : St) (id : Nat) (it : Item) (c : Nat) (m : Msg) (cb : Bool) (place : Nat) (h : s.heap id = some it) :
    (linkOutgoing (linkWaiting ({ s with cookies := c }.mod id
        (fun it => { it with msg := { m with isUsed := true }, cb := cb })) id place) id).heap =
    fun j => if j = id then some { it with msg := { m with isUsed := true }, cb := cb, isWaiting := true, timer := s.attached && cb, isOutgoing := true } else s.heap j := by
  funext j
  by_cases e : j = id
  · subst e
    simp [linkOutgoing, linkWaiting, St.mod, h]
  · simp [linkOutgoing, linkWaiting, St.mod, e]

theorem Tr.inv {mv : Moves} {s s' : St} {evs : List Event} (h : Tr mv s s' evs) (hi : Inv s) : Inv s' := by
  cases h with
  | idle c' _ h hc => exact ⟨hi.fresh, hi.item, hi.nodup, hi.outs, hi.waits⟩
  | create m =>
    refine ⟨?_, ?_, hi.nodup, ?_, ?_⟩
    · intro j hj
      show (if j = s.next then _ else _) = none
      rw [if_neg (by have : s.next + 1 ≤ j := hj; omega)]
      exact hi.fresh j (by have : s.next + 1 ≤ j := hj; omega)
    · intro j it hit
      replace hit : (if j = s.next then some _ else s.heap j) = some it := hit
      split at hit
      · rename_i e
        cases hit
        refine ItemOk.idle rfl rfl rfl rfl rfl ?_
        intro hj
        obtain ⟨y, hy⟩ := hi.outs j hj
        rw [hi.fresh j (by omega)] at hy
        cases hy
      · exact hi.item j it hit
    · intro j hj
      show ∃ it, (if j = s.next then _ else _) = some it
      split
      · exact ⟨_, rfl⟩
      · exact hi.outs j hj
    · intro j hj
      show ∃ it, (if j = s.next then _ else _) = some it
      split
      · exact ⟨_, rfl⟩
      · exact hi.waits j hj
  | setCookie id it c h =>
    rw [mod_eq s id _ it h]
    refine hi.msg id it h _ it.cb s.cookies ?_
    by_cases hs : it.msg.isSealed = true
    · exact Or.inr (Or.inr ⟨setCookie_sealed _ _ hs, rfl⟩)
    · exact Or.inl (by simpa using hs)
  | sealed id it r e h hr =>
    rw [mod_eq { s with cookies := r.2.1 } id _ it h]
    refine hi.msg id it h _ it.cb r.2.1 ?_
    by_cases hs : it.msg.isSealed = true
    · exact Or.inr (Or.inr ⟨(seal_same mv _ _ r hr hs).1, rfl⟩)
    · exact Or.inl (by simpa using hs)
  | refuse id it r cb h h1 h2 h3 hr =>
    rw [mod_eq { s with cookies := r.2.1 } id _ it h]
    exact hi.msg id it h _ cb r.2.1 (Or.inr (Or.inl h3))
  | queue id it r raw cb place h h1 h2 h3 h4 hr h5 h6 hd h7 h8 =>
    have ok := hi.item id it h
    obtain ⟨a, b, c, d, e⟩ := ok.unused h3
    have hout : id ∉ s.outgoing := by intro hj; rw [ok.oi.mpr hj] at c; cases c
    refine hi.put id { it with msg := { r.2.2 with isUsed := true }, cb := cb, isWaiting := true, timer := s.attached && cb, isOutgoing := true } _ it h
      ?_ rfl ?_ ?_ ?_ ?_ ?_
    · exact queue_heap s id it r.2.1 r.2.2 cb place h
    · intro j y hn hy
      show ItemOk (s.outgoing ++ [id]) j y
      refine ⟨hy.w, hy.t, hy.o, ?_, ?_, hy.se, hy.sq, hy.sl⟩
      · rw [hy.oi, List.mem_append, List.mem_singleton]
        exact ⟨Or.inl, fun x => x.resolve_right hn⟩
      · intro hs
        rw [List.head?_append, hy.sd hs]
        rfl
    · show ItemOk (s.outgoing ++ [id]) id _
      have hse := seal_sealed mv _ _ r hr h5
      refine ⟨fun _ => ⟨rfl, hse⟩, ?_, fun _ => ⟨rfl, hse⟩, ?_, ?_, ?_, ?_, ?_⟩
      · intro ht
        refine ⟨rfl, ?_⟩
        have : (s.attached && cb) = true := ht
        rw [Bool.and_eq_true] at this
        exact this.2
      · exact ⟨fun _ => List.mem_append_right _ (List.mem_singleton.mpr rfl), fun _ => rfl⟩
      · intro hs
        rw [d] at hs; cases hs
      · intro hs
        rw [e] at hs; cases hs
      · intro hs
        rw [e] at hs; cases hs
      · show it.sent ≤ _
        rw [e]; exact Nat.zero_le _
    · show (s.outgoing ++ [id]).Nodup
      rw [List.nodup_append]
      refine ⟨hi.nodup, by simp, ?_⟩
      intro x hx y hy e
      rw [List.mem_singleton] at hy
      subst hy; subst e
      exact hout hx
    · intro j hj
      replace hj : j ∈ s.outgoing ++ [id] := hj
      rw [List.mem_append, List.mem_singleton] at hj
      exact hj.symm
    · intro j hj
      replace hj : j ∈ s.waiting.take place ++ id :: s.waiting.drop place := hj
      rw [List.mem_append, List.mem_cons] at hj
      rcases hj with hj | hj | hj
      · exact Or.inr (List.mem_of_mem_take hj)
      · exact Or.inl hj
      · exact Or.inr (List.mem_of_mem_drop hj)
  | dropOut id it it' evs h hw h1 h2 hy =>
    have ok := hi.item id it h
    refine hi.put id _ _ it h rfl rfl (fun j y hn hy => hy.erase hn) ?_ (hi.nodup.erase _) (fun j hj => Or.inr (List.mem_of_mem_erase hj)) (fun j hj => Or.inr hj)
    have hnot : id ∉ s.outgoing.erase id := hi.nodup.not_mem_erase
    have hs0 : it.sent = 0 := by
      cases e : it.sent with
      | zero => rfl
      | succ n =>
        have := ok.sq (by omega) h2
        rw [h1] at this; cases this
    have e : it'.isWaiting = it.isWaiting ∧ it'.msg = it.msg ∧ it'.sent = it.sent ∧ it'.cb = it.cb ∧ (it'.timer = true → it.timer = true) := by
      cases hy
      · exact ⟨rfl, rfl, rfl, rfl, fun x => x⟩
      · exact ⟨rfl, rfl, rfl, rfl, fun x => x⟩
      · exact ⟨rfl, rfl, rfl, rfl, (fun x => by cases x)⟩
    obtain ⟨e1, e2, e3, e4, e5⟩ := e
    refine ⟨?_, ?_, (fun x => by cases x), ?_, (fun x => by cases x), ?_, (fun _ x => by cases x), ?_⟩
    · show it'.isWaiting = true → _
      rw [e1]
      show _ → it'.msg.isUsed = true ∧ it'.msg.isSealed = true
      rw [e2]; exact ok.w
    · show it'.timer = true → it'.isWaiting = true ∧ it'.cb = true
      rw [e1, e4]
      exact fun x => ok.t (e5 x)
    · exact ⟨(fun x => by cases x), fun x => absurd x hnot⟩
    · show 0 < it'.sent → _
      rw [e3, hs0]; intro x; cases x
    · show it'.sent ≤ _
      rw [e3, hs0]; exact Nat.zero_le _
  | dropWait id it it' evs h hw h1 hy =>
    have ok := hi.item id it h
    refine hi.put id _ _ it h rfl rfl (fun j y hn hy => hy) ?_ hi.nodup (fun j hj => Or.inr hj) (fun j hj => Or.inr (List.mem_of_mem_eraseP hj))
    have e : it'.msg = it.msg ∧ it'.sent = it.sent ∧ it'.isOutgoing = it.isOutgoing ∧ it'.isSending = it.isSending := by
      cases hy <;> exact ⟨rfl, rfl, rfl, rfl⟩
    obtain ⟨e1, e2, e3, e4⟩ := e
    refine ⟨(fun x => by cases x), (fun x => by cases x), ?_, ?_, ?_, ?_, ?_, ?_⟩
    · show it'.isOutgoing = true → it'.msg.isUsed = true ∧ it'.msg.isSealed = true
      rw [e3, e1]; exact ok.o
    · show it'.isOutgoing = true ↔ _
      rw [e3]; exact ok.oi
    · show it'.isSending = true → _
      rw [e4]; exact ok.sd
    · show 0 < it'.sent → it'.msg.isUsed = true ∧ it'.msg.isSealed = true
      rw [e2, e1]; exact ok.se
    · show 0 < it'.sent → it'.isOutgoing = true → it'.isSending = true
      rw [e2, e3, e4]; exact ok.sq
    · show it'.sent ≤ (it'.msg.raw.getD []).length
      rw [e2, e1]; exact ok.sl
  | block id rest it ho h ha =>
    have ok := hi.item id it h
    refine hi.put id _ _ it h (heap_mod s id _ it h) rfl (fun j y hn hy => hy) ?_ hi.nodup (fun j hj => Or.inr hj) (fun j hj => Or.inr hj)
    refine ⟨ok.w, ok.t, ok.o, ok.oi, ?_, ok.se, fun _ _ => rfl, ok.sl⟩
    intro _
    show s.outgoing.head? = _
    rw [ho]; rfl
  | part id rest it n ho h hn ha =>
    have ok := hi.item id it h
    have hout : it.isOutgoing = true := ok.oi.mpr (by rw [ho]; exact List.mem_cons_self)
    refine hi.put id _ _ it h (heap_mod s id _ it h) rfl (fun j y hn hy => hy) ?_ hi.nodup (fun j hj => Or.inr hj) (fun j hj => Or.inr hj)
    refine ⟨ok.w, ok.t, ok.o, ok.oi, ?_, fun _ => ok.o hout, fun _ _ => rfl, ?_⟩
    · intro _
      show s.outgoing.head? = _
      rw [ho]; rfl
    · exact Nat.le_of_lt hn
  | fullWait id rest it ho h hc hw ha =>
    have ok := hi.item id it h
    have hout : it.isOutgoing = true := ok.oi.mpr (by rw [ho]; exact List.mem_cons_self)
    refine hi.put id _ _ it h rfl rfl (fun j y hn hy => hy) ?_ hi.nodup (fun j hj => Or.inr hj) (fun j hj => Or.inr (List.mem_of_mem_eraseP hj))
    refine ⟨(fun x => by cases x), (fun x => by cases x), ok.o, ok.oi, ?_, fun _ => ok.o hout, fun _ _ => rfl, ?_⟩
    · intro _
      show s.outgoing.head? = _
      rw [ho]; rfl
    · have := ok.sl
      unfold Item.bytes at this ⊢
      simp only
      omega
  | fullOut id rest it ho h ha =>
    have ok := hi.item id it h
    have hout : it.isOutgoing = true := ok.oi.mpr (by rw [ho]; exact List.mem_cons_self)
    have hr : rest = s.outgoing.erase id := by rw [ho]; exact (List.erase_cons_head ..).symm
    refine hi.put id _ _ it h rfl rfl ?_ ?_ ?_ ?_ (fun j hj => Or.inr hj)
    · intro j y hn hy
      show ItemOk rest j y
      rw [hr]; exact hy.erase hn
    · show ItemOk rest id _
      refine ⟨ok.w, ok.t, (fun x => by cases x), ?_, (fun x => by cases x), fun _ => ok.o hout, (fun _ x => by cases x), ?_⟩
      · refine ⟨(fun x => by cases x), fun x => ?_⟩
        have := hi.nodup
        rw [ho, List.nodup_cons] at this
        exact absurd x this.1
      · have := ok.sl
        unfold Item.bytes at this ⊢
        simp only
        omega
    · have := hi.nodup
      rw [ho, List.nodup_cons] at this
      exact this.2
    · intro j hj
      right; rw [ho]; exact List.mem_cons_of_mem _ hj
  | timers att T hT hU hd =>
    refine ⟨?_, ?_, hi.nodup, ?_, ?_⟩
    · intro j hj
      show Option.map _ (s.heap j) = none
      rw [hi.fresh j hj]; rfl
    · intro j y hy
      replace hy : Option.map _ (s.heap j) = some y := hy
      rw [Option.map_eq_some_iff] at hy
      obtain ⟨it, hit, rfl⟩ := hy
      have ok := hi.item j it hit
      refine ok.congr _ rfl rfl rfl rfl rfl ?_
      intro ht
      rcases hT j it hit ht with h | h
      · exact ok.t h
      · exact ⟨h.1, h.2.1⟩
    · intro j hj
      obtain ⟨it, hit⟩ := hi.outs j hj
      exact ⟨_, by show Option.map _ (s.heap j) = _; rw [hit]; rfl⟩
    · intro j hj
      obtain ⟨it, hit⟩ := hi.waits j hj
      exact ⟨_, by show Option.map _ (s.heap j) = _; rw [hit]; rfl⟩
  | hup T hT hd =>
    refine ⟨?_, ?_, hi.nodup, ?_, ?_⟩
    · intro j hj
      show Option.map _ (s.heap j) = none
      rw [hi.fresh j hj]; rfl
    · intro j y hy
      replace hy : Option.map _ (s.heap j) = some y := hy
      rw [Option.map_eq_some_iff] at hy
      obtain ⟨it, hit, rfl⟩ := hy
      have ok := hi.item j it hit
      refine ok.congr _ rfl rfl rfl rfl rfl ?_
      intro ht
      exact ok.t (hT j it hit ht).1
    · intro j hj
      obtain ⟨it, hit⟩ := hi.outs j hj
      exact ⟨_, by show Option.map _ (s.heap j) = _; rw [hit]; rfl⟩
    · intro j hj
      obtain ⟨it, hit⟩ := hi.waits j hj
      exact ⟨_, by show Option.map _ (s.heap j) = _; rw [hit]; rfl⟩

theorem Inv.step {mv : Moves} {s : St} (hi : Inv s) {o : Op} {r : St × List Event} (h : step mv s o = some r) : Tr mv s r.1 r.2 :=
  step_tr mv s (fun j it hj ht => ((hi.item j it hj).t ht).1) o r h

/-- Induction over traces, with the events so far. -/
theorem exec_ind (mv : Moves) (P : List Event → St → Prop)
    (hstep : ∀ s s' evs e, Inv s → P evs s → Tr mv s s' e → P (evs ++ e) s') (ops : List Op) :
    ∀ (s : St) (evs : List Event) (r : St × List Event), Inv s → P evs s → exec mv s ops = some r → Inv r.1 ∧ P (evs ++ r.2) r.1 := by
  induction ops with
  | nil =>
    intro s evs r hi hp h
    cases h
    exact ⟨hi, by rw [List.append_nil]; exact hp⟩
  | cons o t ih =>
    intro s evs r hi hp h
    unfold exec at h
    simp only [Option.bind_eq_bind, Option.bind_eq_some_iff] at h
    obtain ⟨a, ha, b, hb, h⟩ := h
    cases h
    have ht := hi.step ha
    have := ih a.1 (evs ++ a.2) b (ht.inv hi) (hstep _ _ _ _ hi hp ht) hb
    rw [List.append_assoc] at this
    exact this

end Verif.RtspBus
