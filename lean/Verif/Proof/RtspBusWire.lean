import Verif.Proof.RtspBusClean
/-! What the RTSP bus writes to the socket: helper lemmas. -/
namespace Verif.RtspBus
open Verif.C Verif.Rtsp Verif.RtspBus.Spec

theorem queue_append (a b : List Event) : Spec.queue (a ++ b) = Spec.queue a ++ Spec.queue b := List.filterMap_append

theorem wire_append (a b : List Event) : Spec.wire (a ++ b) = Spec.wire a ++ Spec.wire b := List.flatMap_append

theorem mem_queue (evs : List Event) (q : Call) : q ∈ Spec.queue evs ↔ ∃ cb, .queued q.id q.cookie q.raw cb ∈ evs := by
  unfold Spec.queue
  rw [List.mem_filterMap]
  constructor
  · rintro ⟨e, he, h⟩
    unfold asCall at h
    split at h
    · cases h; exact ⟨_, he⟩
    · cases h
  · rintro ⟨cb, h⟩
    exact ⟨_, h, rfl⟩

theorem queue_nil (e : List Event) (h : ∀ j c r b, .queued j c r b ∉ e) : Spec.queue e = [] := by
  rw [List.eq_nil_iff_forall_not_mem]
  intro q hq
  obtain ⟨cb, hq⟩ := (mem_queue e q).mp hq
  exact h _ _ _ _ hq

theorem wire_nil (e : List Event) (h : ∀ j bs, .wrote j bs ∉ e) : Spec.wire e = [] := by
  unfold Spec.wire
  rw [List.flatMap_eq_nil_iff]
  intro x hx
  unfold asBytes
  split
  · exact absurd hx (h _ _)
  · rfl

theorem begun_append (id : Nat) (a b : List Event) : Begun id (a ++ b) ↔ Begun id a ∨ Begun id b := by
  unfold Begun
  constructor
  · rintro ⟨bs, h⟩
    rw [List.mem_append] at h
    rcases h with h | h
    · exact Or.inl ⟨bs, h⟩
    · exact Or.inr ⟨bs, h⟩
  · rintro (⟨bs, h⟩ | ⟨bs, h⟩)
    · exact ⟨bs, List.mem_append_left _ h⟩
    · exact ⟨bs, List.mem_append_right _ h⟩

theorem Spec.Ended.mono {q : Call} {a : List Event} (h : Ended q a) (b : List Event) : Ended q (a ++ b) := by
  rcases h with h | h | h
  · exact Or.inl (List.mem_append_left _ h)
  · exact Or.inr (Or.inl (List.mem_append_left _ h))
  · exact Or.inr (Or.inr (List.mem_append_left _ h))

/-- Two accepted calls of the same message are the same. -/
theorem Known.inj {evs : List Event} {s : St} (hk : Known evs s) (p q : Call) (hp : p ∈ Spec.queue evs) (hq : q ∈ Spec.queue evs) (h : p.id = q.id) : p = q := by
  obtain ⟨a, ha⟩ := (mem_queue evs p).mp hp
  obtain ⟨b, hb⟩ := (mem_queue evs q).mp hq
  obtain ⟨x, x1, _, _, x4, x5, _⟩ := hk.1 _ _ _ _ ha
  obtain ⟨y, y1, _, _, y4, y5, _⟩ := hk.1 _ _ _ _ hb
  rw [h, y1] at x1; cases x1
  rw [x4] at y4
  rw [x5] at y5
  cases p; cases q
  simp only at h y4 y5
  rw [h, y4, Option.some.inj y5]

/-- What is known of a message whose transmission was begun. -/
def Started (evs : List Event) (s : St) : Prop :=
  ∀ j, Begun j evs → ∃ it, s.heap j = some it ∧ it.msg.isUsed = true ∧ it.msg.isSealed = true ∧ (it.isOutgoing = true → it.isSending = true)

/-- A used message that is being sent or not queued stays so. -/
theorem Tr.stays {mv : Moves} {s s' : St} {evs : List Event} (h : Tr mv s s' evs) (hi : Inv s) (j : Nat) (it : Item) (hj : s.heap j = some it)
    (hu : it.msg.isUsed = true) (hs : it.msg.isSealed = true) (ho : it.isOutgoing = true → it.isSending = true) :
    ∃ it', s'.heap j = some it' ∧ it'.msg.isUsed = true ∧ it'.msg.isSealed = true ∧ (it'.isOutgoing = true → it'.isSending = true) := by
  have put : ∀ (id : Nat) (x y : Item), s.heap id = some y → (y.msg.isUsed = true → y.msg.isSealed = true → (y.isOutgoing = true → y.isSending = true) →
        x.msg = y.msg ∧ (x.isOutgoing = true → x.isSending = true)) →
      ∃ it', (if j = id then some x else s.heap j) = some it' ∧ it'.msg.isUsed = true ∧ it'.msg.isSealed = true ∧ (it'.isOutgoing = true → it'.isSending = true) := by
    intro id x y hy hx
    split
    · rename_i e; subst e
      rw [hj] at hy; cases hy
      obtain ⟨h1, h2⟩ := hx hu hs ho
      exact ⟨x, rfl, by rw [h1]; exact hu, by rw [h1]; exact hs, h2⟩
    · exact ⟨it, hj, hu, hs, ho⟩
  cases h with
  | idle c' _ h hc => exact ⟨it, hj, hu, hs, ho⟩
  | create m =>
    refine ⟨it, ?_, hu, hs, ho⟩
    show (if j = s.next then _ else s.heap j) = _
    rw [if_neg]
    · exact hj
    · intro e
      rw [hi.fresh j (by omega)] at hj; cases hj
  | setCookie id y c h =>
    rw [mod_at s id _ y h]
    exact put id _ y h (fun _ b c => ⟨setCookie_sealed _ _ b, c⟩)
  | sealed id y r e h hr =>
    rw [mod_at { s with cookies := r.2.1 } id _ y h]
    exact put id _ y h (fun _ b c => ⟨(seal_same mv _ _ r hr b).1, c⟩)
  | refuse id y r cb h h1 h2 h3 hr =>
    rw [mod_at { s with cookies := r.2.1 } id _ y h]
    exact put id _ y h (fun a _ _ => by rw [h3] at a; cases a)
  | queue id y r raw cb place h h1 h2 h3 h4 hr h5 h6 hd h7 h8 =>
    rw [queue_heap s id y r.2.1 r.2.2 cb place h]
    exact put id _ y h (fun a _ _ => by rw [h3] at a; cases a)
  | dropOut id y it' evs h hw h1 h2 hy =>
    obtain ⟨e1, e2, e3, e4, e5, e6⟩ := why_same hy
    exact put id _ y h (fun _ _ _ => ⟨e1, (fun x => by cases x)⟩)
  | dropWait id y it' evs h hw h1 hy =>
    refine put id _ y h (fun _ _ c => ?_)
    cases hy with
    | cancel _ => exact ⟨rfl, c⟩
    | reply _ _ _ => exact ⟨rfl, c⟩
    | timeout _ => exact ⟨rfl, c⟩
  | block id rest y ho h ha =>
    rw [mod_at s id _ y h]
    exact put id _ y h (fun _ _ _ => ⟨rfl, fun _ => rfl⟩)
  | part id rest y n ho h hn ha =>
    rw [mod_at s id _ y h]
    exact put id _ y h (fun _ _ _ => ⟨rfl, fun _ => rfl⟩)
  | fullWait id rest y ho h hc hw ha => exact put id _ y h (fun _ _ _ => ⟨rfl, fun _ => rfl⟩)
  | fullOut id rest y ho h ha hc => exact put id _ y h (fun _ _ _ => ⟨rfl, (fun x => by cases x)⟩)
  | timers att T hT hU hd => exact ⟨{ it with timer := T j it }, by show Option.map _ (s.heap j) = _; rw [hj]; rfl, hu, hs, ho⟩
  | hup T hT hd => exact ⟨{ it with timer := T j it }, by show Option.map _ (s.heap j) = _; rw [hj]; rfl, hu, hs, ho⟩

theorem Tr.wrote_item {mv : Moves} {s s' : St} {evs : List Event} (h : Tr mv s s' evs) (hi : Inv s) (j : Nat) (bs : List Byte) (hw : .wrote j bs ∈ evs) :
    ∃ it', s'.heap j = some it' ∧ it'.msg.isUsed = true ∧ it'.msg.isSealed = true ∧ (it'.isOutgoing = true → it'.isSending = true) := by
  have used : ∀ i rest it, s.outgoing = i :: rest → s.heap i = some it → it.msg.isUsed = true ∧ it.msg.isSealed = true := by
    intro i rest it ho h
    exact (hi.item i it h).o ((hi.item i it h).oi.mpr (by rw [ho]; exact List.mem_cons_self))
  cases h with
  | idle c' _ h hc => exact absurd hw ((neutral_not s _ h).1 j bs)
  | create m => cases hw
  | setCookie id it c h => simp at hw
  | sealed id it r e h hr => simp at hw
  | refuse id it r cb h h1 h2 h3 hr => simp at hw
  | queue id it r raw cb place h h1 h2 h3 h4 hr h5 h6 hd h7 h8 => simp at hw
  | dropOut id it it' evs h hw' h1 h2 hy => exact absurd hw (why_not_wrote hy j bs)
  | dropWait id it it' evs h hw' h1 hy => exact absurd hw (why_not_wrote hy j bs)
  | block id rest it ho h ha =>
    rw [List.mem_singleton] at hw; cases hw
    obtain ⟨u1, u2⟩ := used _ _ _ ho h
    exact ⟨{ it with isSending := true }, by rw [mod_at s j _ it h, if_pos rfl], u1, u2, fun _ => rfl⟩
  | part id rest it n ho h hn ha =>
    rw [List.mem_singleton] at hw; cases hw
    obtain ⟨u1, u2⟩ := used _ _ _ ho h
    exact ⟨{ it with isSending := true, sent := it.sent + n }, by rw [mod_at s j _ it h, if_pos rfl], u1, u2, fun _ => rfl⟩
  | fullWait id rest it ho h hc hw' ha =>
    rw [List.mem_singleton] at hw; cases hw
    obtain ⟨u1, u2⟩ := used _ _ _ ho h
    exact ⟨_, if_pos rfl, u1, u2, fun _ => rfl⟩
  | fullOut id rest it ho h ha hc =>
    rw [List.mem_singleton] at hw; cases hw
    obtain ⟨u1, u2⟩ := used _ _ _ ho h
    exact ⟨_, if_pos rfl, u1, u2, (fun x => by cases x)⟩
  | timers att T hT hU hd => cases hw
  | hup T hT hd => simp at hw

theorem Started.step {mv : Moves} {s s' : St} {evs e : List Event} (hi : Inv s) (hp : Started evs s) (h : Tr mv s s' e) : Started (evs ++ e) s' := by
  intro j hb
  rcases (begun_append j evs e).mp hb with hb | ⟨bs, hb⟩
  · obtain ⟨it, h1, h2, h3, h4⟩ := hp j hb
    exact h.stays hi j it h1 h2 h3 h4
  · exact h.wrote_item hi j bs hb

/-- How many bytes of a message were accepted by the socket. -/
def sentOf (s : St) (j : Nat) : Nat := match s.heap j with
  | some it => it.sent
  | none => 0

/-- The part of the first queued message that is out already. -/
def partOf (s : St) : List Call → List Byte
  | [] => []
  | q :: _ => q.raw.take (sentOf s q.id)

/-- The bytes on the wire, and the fate of every accepted call: `full` are out, `rest` is still queued. -/
structure Out (evs : List Event) (s : St) (full rest : List Call) : Prop where
  sub : (full ++ rest).Sublist (Spec.queue evs)
  ids : rest.map (·.id) = s.outgoing
  wire : Spec.wire evs = full.flatMap (·.raw) ++ partOf s rest
  begun : ∀ q ∈ full, Begun q.id evs
  gone : ∀ q ∈ Spec.queue evs, q ∉ full → q ∉ rest → Ended q evs ∧ ¬ Begun q.id evs

theorem out_init : Out [] init [] [] :=
  ⟨List.Sublist.refl _, rfl, rfl, (fun _ h => by cases h), (fun _ h => by cases h)⟩

/-- Only the first queued message has bytes out. -/
theorem Inv.sent_zero {s : St} (hi : Inv s) (a : Nat) (t : List Nat) (ho : s.outgoing = a :: t) (j : Nat) (hj : j ∈ t) : sentOf s j = 0 := by
  unfold sentOf
  obtain ⟨it, hit⟩ := hi.outs j (by rw [ho]; exact List.mem_cons_of_mem _ hj)
  rw [hit]
  simp only
  have ok := hi.item j it hit
  cases e : it.sent with
  | zero => rfl
  | succ n =>
    have h1 := ok.sq (by omega) (ok.oi.mpr (by rw [ho]; exact List.mem_cons_of_mem _ hj))
    have h2 := ok.sd h1
    rw [ho] at h2
    simp only [List.head?_cons, Option.some.injEq] at h2
    have := hi.nodup
    rw [ho, List.nodup_cons] at this
    rw [h2] at this
    exact absurd hj this.1

theorem partOf_zero (s : St) (l : List Call) (h : ∀ q ∈ l.head?, sentOf s q.id = 0) : partOf s l = [] := by
  cases l with
  | nil => rfl
  | cons q t =>
    show q.raw.take (sentOf s q.id) = []
    rw [h q rfl]; rfl

theorem partOf_congr (s s' : St) (l : List Call) (h : ∀ q ∈ l.head?, sentOf s' q.id = sentOf s q.id) : partOf s' l = partOf s l := by
  cases l with
  | nil => rfl
  | cons q t =>
    show q.raw.take _ = q.raw.take _
    rw [h q rfl]

/-- Steps that leave the outgoing queue alone. -/
theorem Out.idle {evs e : List Event} {s s' : St} {full rest : List Call} (h : Out evs s full rest) (ho : s'.outgoing = s.outgoing)
    (hs : ∀ j ∈ s.outgoing, sentOf s' j = sentOf s j) (hq : ∀ j c r b, .queued j c r b ∉ e) (hw : ∀ j bs, .wrote j bs ∉ e) :
    Out (evs ++ e) s' full rest := by
  have e1 : Spec.queue (evs ++ e) = Spec.queue evs := by rw [queue_append, queue_nil e hq, List.append_nil]
  refine ⟨by rw [e1]; exact h.sub, by rw [ho]; exact h.ids, ?_, ?_, ?_⟩
  · rw [wire_append, wire_nil e hw, List.append_nil, h.wire, partOf_congr s s' rest]
    intro q hq
    apply hs
    rw [← h.ids]
    exact List.mem_map_of_mem (List.mem_of_head? hq)
  · intro q hq
    exact (begun_append _ _ _).mpr (Or.inl (h.begun q hq))
  · intro q hq hf hr
    rw [e1] at hq
    obtain ⟨a, b⟩ := h.gone q hq hf hr
    refine ⟨a.mono e, ?_⟩
    rw [begun_append]
    rintro (x | ⟨bs, x⟩)
    · exact b x
    · exact hw _ _ x

/-- A write to the first queued message that leaves it in the queue. -/
theorem Out.more {evs : List Event} {s s' : St} {full rest : List Call} {id : Nat} {t : List Nat} {bs : List Byte} (hk : Known evs s)
    (h : Out evs s full rest) (ho : s.outgoing = id :: t) (ho' : s'.outgoing = s.outgoing)
    (hb : ∀ q : Call, q.id = id → q ∈ Spec.queue evs → q.raw.take (sentOf s' id) = q.raw.take (sentOf s id) ++ bs) : Out (evs ++ [.wrote id bs]) s' full rest := by
  have e1 : Spec.queue (evs ++ [.wrote id bs]) = Spec.queue evs := by rw [queue_append]; exact List.append_nil _
  cases rest with
  | nil =>
    have := h.ids
    rw [ho] at this
    cases this
  | cons q r =>
    have hid : q.id = id := by
      have := h.ids
      rw [ho] at this
      simp only [List.map_cons, List.cons.injEq] at this
      exact this.1
    have hqm : q ∈ Spec.queue evs := h.sub.subset (List.mem_append_right _ List.mem_cons_self)
    refine ⟨by rw [e1]; exact h.sub, by rw [ho']; exact h.ids, ?_, ?_, ?_⟩
    · rw [wire_append, h.wire, List.append_assoc]
      congr 1
      show q.raw.take (sentOf s q.id) ++ _ = q.raw.take (sentOf s' q.id)
      rw [hid, hb q hid hqm]
      simp [Spec.wire, asBytes]
    · intro p hp
      exact (begun_append _ _ _).mpr (Or.inl (h.begun p hp))
    · intro p hp hf hr
      rw [e1] at hp
      obtain ⟨a, b⟩ := h.gone p hp hf hr
      refine ⟨a.mono _, ?_⟩
      rw [begun_append]
      rintro (x | ⟨bs', x⟩)
      · exact b x
      · rw [List.mem_singleton] at x
        cases x
        exact hr (by rw [hk.inj p q hp hqm hid.symm]; exact List.mem_cons_self)

theorem map_eraseP (l : List Call) (id : Nat) : (l.eraseP (fun q => q.id = id)).map (·.id) = (l.map (·.id)).erase id := by
  induction l with
  | nil => rfl
  | cons q t ih =>
    by_cases e : q.id = id
    · rw [List.eraseP_cons_of_pos (by simpa using e), List.map_cons, e, List.erase_cons_head]
    · rw [List.eraseP_cons_of_neg (by simpa using e), List.map_cons, List.map_cons, List.erase_cons_tail (by simpa using e), ih]

theorem mem_eraseP (l : List Call) (id : Nat) (q : Call) (hq : q ∈ l) (h : q ∉ l.eraseP (fun q => q.id = id)) : q.id = id := by
  induction l with
  | nil => cases hq
  | cons p t ih =>
    by_cases e : p.id = id
    · rw [List.eraseP_cons_of_pos (by simpa using e)] at h
      rcases List.mem_cons.mp hq with rfl | hq
      · exact e
      · exact absurd hq h
    · rw [List.eraseP_cons_of_neg (by simpa using e), List.mem_cons] at h
      rcases List.mem_cons.mp hq with rfl | hq
      · exact absurd (Or.inl rfl) h
      · exact ih hq (fun x => h (Or.inr x))

/-- A call that leaves a queue did so because it was cancelled, answered or timed out. -/
theorem why_ended {s : St} {id : Nat} {it it' : Item} {e : List Event} (hy : Why s id it it' e) (hcb : it.timer = true → it.cb = true) (q : Call)
    (h1 : q.id = id) (h2 : q.cookie = it.msg.cookie) : Ended q e := by
  cases hy with
  | cancel _ => left; rw [h2]; exact List.mem_cons_self
  | reply _ _ _ => right; right; rw [h2]; exact List.mem_cons_self
  | timeout ht => right; left; unfold complete; rw [hcb ht, h1]; exact List.mem_cons_self

theorem sent_at (s s' : St) (id : Nat) (x : Item) (hh : s'.heap = fun j => if j = id then some x else s.heap j) (j : Nat) :
    sentOf s' j = if j = id then x.sent else sentOf s j := by
  unfold sentOf
  rw [hh]
  by_cases e : j = id
  · simp [e]
  · simp [e]

theorem Out.step {mv : Moves} {s s' : St} {evs e : List Event} {full rest : List Call} (hi : Inv s) (hk : Known evs s) (hst : Started evs s)
    (hp : Out evs s full rest) (h : Tr mv s s' e) : ∃ full' rest', Out (evs ++ e) s' full' rest' := by
  have out : ∀ j ∈ s.outgoing, ∃ it, s.heap j = some it ∧ it.msg.isUsed = true ∧ it.msg.isSealed = true := by
    intro j hj
    obtain ⟨it, hit⟩ := hi.outs j hj
    exact ⟨it, hit, (hi.item j it hit).o ((hi.item j it hit).oi.mpr hj)⟩
  have rawq : ∀ q ∈ Spec.queue evs, ∀ it, s.heap q.id = some it → it.msg.raw.getD [] = q.raw ∧ it.msg.cookie = q.cookie := by
    intro q hq it hit
    obtain ⟨cb, hq⟩ := (mem_queue evs q).mp hq
    obtain ⟨x, x1, _, _, x4, x5, _⟩ := hk.1 _ _ _ _ hq
    rw [hit] at x1; cases x1
    rw [x5]; exact ⟨rfl, x4⟩
  cases h with
  | idle c' _ h hc =>
    obtain ⟨n1, _, n3, _⟩ := neutral_not s _ h
    exact ⟨full, rest, hp.idle rfl (fun _ _ => rfl) n3 n1⟩
  | create m =>
    refine ⟨full, rest, hp.idle rfl ?_ (fun _ _ _ _ x => by cases x) (fun _ _ x => by cases x)⟩
    intro j hj
    rw [sent_at s _ s.next ⟨m, false, 0, false, false, false, false⟩ rfl, if_neg]
    intro e
    obtain ⟨it, hit, _⟩ := out j hj
    rw [hi.fresh j (by omega)] at hit; cases hit
  | setCookie id it c h =>
    refine ⟨full, rest, hp.idle rfl ?_ (by simp) (by simp)⟩
    intro j hj
    rw [sent_at s _ id _ (heap_mod s id _ it h)]
    split
    · rename_i e; subst e; unfold sentOf; rw [h]
    · rfl
  | sealed id it r e h hr =>
    refine ⟨full, rest, hp.idle rfl ?_ (by simp) (by simp)⟩
    intro j hj
    rw [sent_at s _ id _ (heap_mod { s with cookies := r.2.1 } id _ it h)]
    split
    · rename_i e; subst e; unfold sentOf; rw [h]
    · rfl
  | refuse id it r cb h h1 h2 h3 hr =>
    refine ⟨full, rest, hp.idle rfl ?_ (by simp) (by simp)⟩
    intro j hj
    rw [sent_at s _ id _ (heap_mod { s with cookies := r.2.1 } id _ it h)]
    split
    · rename_i e; subst e; unfold sentOf; rw [h]
    · rfl
  | queue id it r raw cb place h h1 h2 h3 h4 hr h5 h6 hd h7 h8 =>
    have hheap := queue_heap s id it r.2.1 r.2.2 cb place h
    have e1 : Spec.queue (evs ++ [.queued id r.2.2.cookie raw cb, .ret 0]) = Spec.queue evs ++ [⟨id, r.2.2.cookie, raw⟩] := by
      rw [queue_append]; rfl
    have hno : ∀ j bs, .wrote j bs ∉ [Event.queued id r.2.2.cookie raw cb, .ret 0] := by simp
    refine ⟨full, rest ++ [⟨id, r.2.2.cookie, raw⟩], ?_, ?_, ?_, ?_, ?_⟩
    · rw [e1, ← List.append_assoc]
      exact hp.sub.append (List.Sublist.refl _)
    · show _ = s.outgoing ++ [id]
      rw [List.map_append, hp.ids]; rfl
    · rw [wire_append, wire_nil _ hno, List.append_nil, hp.wire]
      congr 1
      cases rest with
      | nil =>
        symm
        apply partOf_zero
        intro q hq
        cases hq
        rw [sent_at s _ id _ hheap, if_pos rfl]
        exact ((hi.item id it h).unused h3).2.2.2.2
      | cons q t =>
        show q.raw.take (sentOf s q.id) = q.raw.take (sentOf _ q.id)
        rw [sent_at s _ id _ hheap]
        split
        · rename_i e
          have : id ∈ s.outgoing := by rw [← hp.ids, ← e]; exact List.mem_cons_self
          have := (hi.item id it h).oi.mpr this
          rw [h1] at this; cases this
        · rfl
    · intro q hq
      exact (begun_append _ _ _).mpr (Or.inl (hp.begun q hq))
    · intro q hq hf hr
      rw [e1, List.mem_append] at hq
      rw [List.mem_append] at hr
      rcases hq with hq | hq
      · obtain ⟨a, b⟩ := hp.gone q hq hf (fun x => hr (Or.inl x))
        refine ⟨a.mono _, ?_⟩
        rw [begun_append]
        rintro (x | ⟨bs, x⟩)
        · exact b x
        · exact hno _ _ x
      · exact absurd (Or.inr hq) hr
  | dropOut id it it' e h hw h1 h2 hy =>
    obtain ⟨e1, e2, e3, e4, e5, e6⟩ := why_same hy
    have hsent : it.sent = 0 := by
      cases e : it.sent with
      | zero => rfl
      | succ n =>
        have := (hi.item id it h).sq (by omega) h2
        rw [h1] at this; cases this
    have q1 : Spec.queue (evs ++ e) = Spec.queue evs := by rw [queue_append, queue_nil e (why_not hy).1, List.append_nil]
    refine ⟨full, rest.eraseP (fun q => q.id = id), ?_, ?_, ?_, ?_, ?_⟩
    · rw [q1]
      exact ((List.Sublist.refl full).append List.eraseP_sublist).trans hp.sub
    · rw [map_eraseP, hp.ids]
    · rw [wire_append, wire_nil e (why_not_wrote hy), List.append_nil, hp.wire]
      congr 1
      cases rest with
      | nil => rfl
      | cons q t =>
        have hids : q.id :: t.map (·.id) = s.outgoing := hp.ids
        have hnz : ∀ j, sentOf { s with heap := fun j => if j = id then some { it' with isOutgoing := false, isSending := false } else s.heap j, outgoing := s.outgoing.erase id } j = sentOf s j ∨ j = id := by
          intro j
          rw [sent_at s _ id { it' with isOutgoing := false, isSending := false } rfl]
          by_cases e : j = id
          · exact Or.inr e
          · exact Or.inl (if_neg e)
        by_cases e : q.id = id
        · rw [List.eraseP_cons_of_pos (by simpa using e)]
          have l : q.raw.take (sentOf s q.id) = [] := by
            rw [e]; unfold sentOf; rw [h]; simp [hsent]
          show q.raw.take (sentOf s q.id) = _
          rw [l]
          symm
          apply partOf_zero
          intro p hp'
          have hpt : p.id ∈ t.map (·.id) := List.mem_map_of_mem (List.mem_of_head? hp')
          rcases hnz p.id with hh | hh
          · rw [hh]
            exact hi.sent_zero q.id _ hids.symm p.id hpt
          · exfalso
            have := hi.nodup
            rw [← hids, List.nodup_cons, e, ← hh] at this
            exact this.1 hpt
        · rw [List.eraseP_cons_of_neg (by simpa using e)]
          show q.raw.take _ = q.raw.take _
          rcases hnz q.id with hh | hh
          · rw [hh]
          · exact absurd hh e
    · intro q hq
      exact (begun_append _ _ _).mpr (Or.inl (hp.begun q hq))
    · intro q hq hf hr
      rw [q1] at hq
      have nb : ¬ Begun q.id evs → ¬ Begun q.id (evs ++ e) := by
        intro b
        rw [begun_append]
        rintro (x | ⟨bs, x⟩)
        · exact b x
        · exact why_not_wrote hy _ _ x
      by_cases hin : q ∈ rest
      · have hid := mem_eraseP rest id q hin hr
        have hcook := (rawq q hq it (by rw [hid]; exact h)).2
        obtain hen := why_ended hy (fun t => ((hi.item id it h).t t).2) q hid hcook.symm
        refine ⟨?_, nb ?_⟩
        · rcases hen with x | x | x
          · exact Or.inl (List.mem_append_right _ x)
          · exact Or.inr (Or.inl (List.mem_append_right _ x))
          · exact Or.inr (Or.inr (List.mem_append_right _ x))
        · intro hb
          obtain ⟨x, x1, _, _, x4⟩ := hst q.id hb
          rw [hid, h] at x1; cases x1
          rw [x4 h2] at h1; cases h1
      · obtain ⟨a, b⟩ := hp.gone q hq hf hin
        exact ⟨a.mono _, nb b⟩
  | dropWait id it it' e h hw h1 hy =>
    refine ⟨full, rest, hp.idle rfl ?_ (why_not hy).1 (why_not_wrote hy)⟩
    intro j hj
    rw [sent_at s _ id { it' with isWaiting := false, timer := false } rfl]
    split
    · rename_i e; subst e; unfold sentOf; rw [h]
      cases hy <;> rfl
    · rfl
  | block id t it ho h ha =>
    refine ⟨full, rest, hp.more hk ho rfl ?_⟩
    intro q _ _
    rw [sent_at s _ id _ (heap_mod s id _ it h), if_pos rfl, List.append_nil]
    unfold sentOf; rw [h]
  | part id t it n ho h hn ha =>
    refine ⟨full, rest, hp.more hk ho rfl ?_⟩
    intro q hq hm
    rw [sent_at s _ id _ (heap_mod s id _ it h), if_pos rfl, (rawq q hm it (by rw [hq]; exact h)).1]
    unfold sentOf; rw [h]
    exact List.take_add
  | fullWait id t it ho h hc hw ha =>
    refine ⟨full, rest, hp.more hk ho rfl ?_⟩
    intro q hq hm
    have hr := (rawq q hm it (by rw [hq]; exact h)).1
    rw [sent_at s _ id _ rfl, if_pos rfl, hr]
    unfold sentOf; rw [h]
    simp only
    rw [List.take_append_drop, List.take_of_length_le]
    omega
  | fullOut id t it ho h ha hc =>
    cases rest with
    | nil =>
      have := hp.ids
      rw [ho] at this
      cases this
    | cons q r =>
      have hids : q.id = id ∧ r.map (·.id) = t := by
        have := hp.ids
        rw [ho] at this
        simpa using this
      have hqm : q ∈ Spec.queue evs := hp.sub.subset (List.mem_append_right _ List.mem_cons_self)
      have hr := (rawq q hqm it (by rw [hids.1]; exact h)).1
      have q1 : Spec.queue (evs ++ [.wrote id ((it.msg.raw.getD []).drop it.sent)]) = Spec.queue evs := by rw [queue_append]; exact List.append_nil _
      refine ⟨full ++ [q], r, ?_, hids.2, ?_, ?_, ?_⟩
      · rw [q1, List.append_assoc]
        exact hp.sub
      · rw [wire_append, hp.wire, List.flatMap_append]
        have z : partOf { s with heap := fun j => if j = id then some { it with isSending := false, isOutgoing := false, sent := it.sent + ((it.msg.raw.getD []).length - it.sent) } else s.heap j, outgoing := t } r = [] := by
          apply partOf_zero
          intro p hp'
          have hpt : p.id ∈ t := by rw [← hids.2]; exact List.mem_map_of_mem (List.mem_of_head? hp')
          rw [sent_at s _ id _ rfl, if_neg]
          · exact hi.sent_zero id t ho p.id hpt
          · intro e
            have := hi.nodup
            rw [ho, List.nodup_cons, ← e] at this
            exact this.1 hpt
        rw [z, List.append_nil, List.append_assoc]
        congr 1
        show q.raw.take (sentOf s q.id) ++ _ = _
        rw [hids.1, hr]
        unfold sentOf; rw [h]
        simp [Spec.wire, asBytes]
      · intro p hp'
        rw [List.mem_append, List.mem_singleton] at hp'
        rcases hp' with hp' | rfl
        · exact (begun_append _ _ _).mpr (Or.inl (hp.begun p hp'))
        · exact (begun_append _ _ _).mpr (Or.inr ⟨_, by rw [hids.1]; exact List.mem_cons_self⟩)
      · intro p hp' hf hr'
        rw [q1] at hp'
        rw [List.mem_append, List.mem_singleton] at hf
        have hpq : p ≠ q := fun x => hf (Or.inr x)
        obtain ⟨a, b⟩ := hp.gone p hp' (fun x => hf (Or.inl x)) (by
          rw [List.mem_cons]
          rintro (x | x)
          · exact hpq x
          · exact hr' x)
        refine ⟨a.mono _, ?_⟩
        rw [begun_append]
        rintro (x | ⟨bs', x⟩)
        · exact b x
        · rw [List.mem_singleton] at x
          simp only [Event.wrote.injEq] at x
          exact hpq (hk.inj p q hp' hqm (by rw [x.1, hids.1]))
  | timers att T hT hU hd =>
    refine ⟨full, rest, hp.idle rfl ?_ (fun _ _ _ _ x => by cases x) (fun _ _ x => by cases x)⟩
    intro j _
    unfold sentOf
    show (match Option.map (fun it : Item => { it with timer := T j it }) (s.heap j) with | some it => it.sent | none => 0) = _
    cases s.heap j <;> rfl
  | hup T hT hd =>
    refine ⟨full, rest, hp.idle rfl ?_ (by simp) (by simp)⟩
    intro j _
    unfold sentOf
    show (match Option.map (fun it : Item => { it with timer := T j it }) (s.heap j) with | some it => it.sent | none => 0) = _
    cases s.heap j <;> rfl

/-- All of it along a trace. -/
theorem exec_out (mv : Moves) (ops : List Op) (s : St) (evs : List Event) (h : exec mv init ops = some (s, evs)) :
    Inv s ∧ Known evs s ∧ Started evs s ∧ ∃ full rest, Out evs s full rest := by
  have := exec_ind mv (fun evs s => Known evs s ∧ Started evs s ∧ ∃ full rest, Out evs s full rest)
    (fun s s' evs e hi hp ht => by
      obtain ⟨h1, h2, f, r, h3⟩ := hp
      exact ⟨h1.step hi ht, h2.step hi ht, h3.step hi h1 h2 ht⟩)
    ops init [] (s, evs) inv_init ⟨known_init, (fun j h => by obtain ⟨_, h⟩ := h; cases h), [], [], out_init⟩ h
  exact this

/-- What is still to be written, counted in writes. -/
def todo (s : St) (j : Nat) : Nat := match s.heap j with
  | some it => (it.bytes.length - it.sent) + if it.isWaiting = true ∧ it.cb = false then 2 else 1
  | none => 1

def todos (s : St) : Nat := (s.outgoing.map (todo s)).sum

theorem todo_at (s s' : St) (id : Nat) (x : Item) (hh : s'.heap = fun j => if j = id then some x else s.heap j) (j : Nat) (hj : j ≠ id) :
    todo s' j = todo s j := by
  unfold todo
  rw [hh]
  simp [hj]

/-- Each write of a byte or more makes progress. -/
theorem write_progress (mv : Moves) (s : St) (hi : Inv s) (ha : s.attached = true) (n : Nat) (hn : 0 < n) :
    ∃ s' e, step mv s (.write (some n)) = some (s', e) ∧ s'.attached = true ∧ Spec.queue e = [] ∧ (s.outgoing ≠ [] → todos s' < todos s) ∧
      (s.outgoing = [] → s'.outgoing = []) := by
  unfold step
  dsimp only
  rw [if_pos ha]
  unfold write
  cases ho : s.outgoing with
  | nil => exact ⟨s, [], rfl, ha, rfl, fun h => absurd rfl h, fun _ => ho⟩
  | cons id t =>
    obtain ⟨it, hit⟩ := hi.outs id (by rw [ho]; exact List.mem_cons_self)
    have hnd := hi.nodup
    rw [ho, List.nodup_cons] at hnd
    have ok := hi.item id it hit
    simp only [hit, Option.bind_eq_bind, Option.bind_some]
    unfold writeMessage
    simp only
    have hne : ∀ j ∈ t, j ≠ id := fun j hj e => hnd.1 (e ▸ hj)
    have key : ∀ (x : Item) (s' : St), s'.heap = (fun j => if j = id then some x else s.heap j) → s'.outgoing = id :: t →
        ((x.bytes.length - x.sent) + (if x.isWaiting = true ∧ x.cb = false then 2 else 1) < todo s id) → todos s' < todos s := by
      intro x s' hh ho' hlt
      unfold todos
      rw [ho, ho']
      simp only [List.map_cons, List.sum_cons]
      have e1 : t.map (todo s') = t.map (todo s) := List.map_congr_left fun j hj => todo_at s s' id x hh j (hne j hj)
      have e2 : todo s' id = (x.bytes.length - x.sent) + (if x.isWaiting = true ∧ x.cb = false then 2 else 1) := by
        unfold todo; rw [hh]; simp
      rw [e1, e2]
      omega
    have hto : todo s id = (it.bytes.length - it.sent) + (if it.isWaiting = true ∧ it.cb = false then 2 else 1) := by
      unfold todo; rw [hit]
    have hb : it.bytes = it.msg.raw.getD [] := rfl
    by_cases hlt : it.sent + min n ((it.msg.raw.getD []).length - it.sent) < (it.msg.raw.getD []).length
    · rw [if_pos hlt]
      refine ⟨_, _, rfl, ha, rfl, fun _ => ?_, (fun h => by cases h)⟩
      refine key _ _ (heap_mod s id _ it hit) ho ?_
      rw [hto]
      show ((it.msg.raw.getD []).length - (it.sent + min n ((it.msg.raw.getD []).length - it.sent))) + _ < _
      rw [hb]
      have : min n ((it.msg.raw.getD []).length - it.sent) = n := by omega
      rw [this] at hlt ⊢
      simp only
      omega
    · rw [if_neg hlt]
      split
      · rename_i hc
        refine ⟨_, _, rfl, ha, rfl, fun _ => ?_, (fun h => by cases h)⟩
        refine key { it with isSending := true, sent := it.sent + min n ((it.msg.raw.getD []).length - it.sent), isWaiting := false, timer := false } _ ?_ ho ?_
        · unfold unlinkWaiting
          rw [mod_eq s id _ it hit, mod_eq _ id _ _ (if_pos rfl)]
          simp only [twice]
        · have h2 : todo s id = (it.bytes.length - it.sent) + 2 := by rw [hto, if_pos ⟨hc.2, hc.1⟩]
          rw [h2]
          show ((it.msg.raw.getD []).length - (it.sent + min n ((it.msg.raw.getD []).length - it.sent))) + (if false = true ∧ it.cb = false then 2 else 1) < _
          rw [if_neg (fun x => by cases x.1), hb]
          omega
      · refine ⟨_, _, rfl, ha, rfl, fun _ => ?_, (fun h => by cases h)⟩
        have hheap : (unlinkOutgoing (s.mod id (fun it => { it with isSending := true, sent := it.sent + min n ((it.msg.raw.getD []).length - it.sent) })) id).heap =
            fun j => if j = id then some { it with isSending := false, isOutgoing := false, sent := it.sent + min n ((it.msg.raw.getD []).length - it.sent) } else s.heap j := by
          unfold unlinkOutgoing
          rw [mod_eq s id _ it hit, mod_eq _ id _ _ (if_pos rfl)]
          simp only [twice]
        unfold todos
        rw [ho]
        have hout : (unlinkOutgoing (s.mod id (fun it_1 => { it_1 with isSending := true, sent := it_1.sent + min n ((it.msg.raw.getD []).length - it.sent) })) id).outgoing = t := by
          show s.outgoing.erase id = t
          rw [ho, List.erase_cons_head]
        rw [hout]
        have hheap' : (unlinkOutgoing (s.mod id (fun it_1 => { it_1 with isSending := true, sent := it_1.sent + min n ((it.msg.raw.getD []).length - it.sent) })) id).heap =
            fun j => if j = id then some { it with isSending := false, isOutgoing := false, sent := it.sent + min n ((it.msg.raw.getD []).length - it.sent) } else s.heap j := by
          unfold unlinkOutgoing
          rw [mod_eq s id _ it hit, mod_eq _ id _ _ (if_pos rfl)]
          simp only [twice]
        have e1 := List.map_congr_left (l := t) fun j hj => todo_at s _ id _ hheap' j (hne j hj)
        rw [e1]
        simp only [List.map_cons, List.sum_cons]
        have : 0 < todo s id := by rw [hto]; split <;> omega
        omega

/-- Enough writes empty the outgoing queue. -/
theorem flush (mv : Moves) (ns : List Nat) : ∀ (s : St), Inv s → s.attached = true → (∀ n ∈ ns, 0 < n) → todos s ≤ ns.length →
    ∃ s' e, exec mv s (ns.map fun n => .write (some n)) = some (s', e) ∧ s'.outgoing = [] ∧ Spec.queue e = [] := by
  induction ns with
  | nil =>
    intro s hi ha _ hle
    refine ⟨s, [], rfl, ?_, rfl⟩
    cases ho : s.outgoing with
    | nil => rfl
    | cons id t =>
      exfalso
      unfold todos at hle
      rw [ho] at hle
      simp only [List.map_cons, List.sum_cons, List.length_nil] at hle
      have : 0 < todo s id := by
        unfold todo
        split
        · split <;> omega
        · omega
      omega
  | cons n t ih =>
    intro s hi ha hns hle
    obtain ⟨s1, e1, h1, h2, h3, h4, h5⟩ := write_progress mv s hi ha n (hns n List.mem_cons_self)
    have hi1 := (hi.step h1).inv hi
    have hle1 : todos s1 ≤ t.length := by
      by_cases ho : s.outgoing = []
      · have := h5 ho
        unfold todos
        rw [this]; simp
      · have := h4 ho
        simp only [List.length_cons] at hle
        omega
    obtain ⟨s2, e2, k1, k2, k3⟩ := ih s1 hi1 h2 (fun m hm => hns m (List.mem_cons_of_mem _ hm)) hle1
    refine ⟨s2, e1 ++ e2, ?_, k2, ?_⟩
    · simp only [List.map_cons, exec, h1, k1, Option.bind_eq_bind, Option.bind_some]
    · rw [queue_append, h3, k3]; rfl

end Verif.RtspBus
