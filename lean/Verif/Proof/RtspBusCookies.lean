import Verif.Proof.RtspBusWire
/-! The cookies of calls made over the RTSP bus: helper lemmas. -/
namespace Verif.RtspBus
open Verif.C Verif.Rtsp Verif.RtspBus.Spec

/-- No message is accepted twice. -/
theorem Tr.queue_cases {mv : Moves} {s s' : St} {e : List Event} (h : Tr mv s s' e) :
    Spec.queue e = [] ∨ ∃ q cb, e = [.queued q.id q.cookie q.raw cb, .ret 0] ∧ Spec.queue e = [q] := by
  by_cases hq : ∃ j c r b, .queued j c r b ∈ e
  · obtain ⟨j, c, r, b, hq⟩ := hq
    obtain ⟨_, _, _, _, _, _, _, _, _, _, _, _, _, _, _, he, _⟩ := h.queued j c r b hq
    exact Or.inr ⟨⟨j, c, r⟩, b, he, by rw [he]; rfl⟩
  · exact Or.inl (queue_nil e (fun j c r b x => hq ⟨j, c, r, b, x⟩))

/-- The addresses of accepted calls are all different, and all cookies are set; everything in the table was accepted. -/
structure Listed (evs : List Event) (s : St) : Prop where
  ids : ((Spec.queue evs).map (·.id)).Nodup
  nz : ∀ q ∈ Spec.queue evs, q.cookie ≠ 0
  wait : ∀ j ∈ s.waiting, ∃ q ∈ Spec.queue evs, q.id = j

theorem listed_init : Listed [] init := ⟨List.nodup_nil, (fun _ h => by cases h), (fun _ h => by cases h)⟩

theorem Tr.waits {mv : Moves} {s s' : St} {e : List Event} (h : Tr mv s s' e) (j : Nat) (hj : j ∈ s'.waiting) :
    j ∈ s.waiting ∨ ∃ q ∈ Spec.queue e, q.id = j := by
  cases h with
  | queue id it r raw cb place h h1 h2 h3 h4 hr h5 h6 hd h7 h8 =>
    replace hj : j ∈ s.waiting.take place ++ id :: s.waiting.drop place := hj
    rw [List.mem_append, List.mem_cons] at hj
    rcases hj with hj | hj | hj
    · exact Or.inl (List.mem_of_mem_take hj)
    · exact Or.inr ⟨⟨id, r.2.2.cookie, raw⟩, List.mem_cons_self, hj.symm⟩
    · exact Or.inl (List.mem_of_mem_drop hj)
  | dropWait id it it' evs h hw h1 hy => exact Or.inl (List.mem_of_mem_eraseP hj)
  | fullWait id rest it ho h hc hw ha => exact Or.inl (List.mem_of_mem_eraseP hj)
  | idle c' _ h hc => exact Or.inl hj
  | create m => exact Or.inl hj
  | setCookie id it c h => exact Or.inl hj
  | sealed id it r e h hr => exact Or.inl hj
  | refuse id it r cb h h1 h2 h3 hr => exact Or.inl hj
  | dropOut id it it' evs h hw h1 h2 hy => exact Or.inl hj
  | block id rest it ho h ha => exact Or.inl hj
  | part id rest it n ho h hn ha => exact Or.inl hj
  | fullOut id rest it ho h ha hc => exact Or.inl hj
  | timers att T hT hU hd => exact Or.inl hj
  | hup T hT hd => exact Or.inl hj

theorem remote_nz (c : Nat) : remote c ≠ 0 := by unfold remote REMOTE; omega

theorem nextCookie_nz (c : Nat) : nextCookie c ≠ 0 := by unfold nextCookie; split <;> omega

theorem seal_nz (mv : Moves) (ck : Nat) (m : Msg) (r : Int × Nat × Msg) (h : sealMsg mv ck m = some r) (hc : m.cookie ≠ 0) : r.2.2.cookie ≠ 0 := by
  obtain ⟨_, _, ⟨_, h2⟩ | ⟨_, _, h2⟩⟩ := seal_cookie mv ck m r h
  · rw [h2]; exact hc
  · rw [h2]
    split
    · exact remote_nz _
    · exact hc

theorem Listed.step {mv : Moves} {s s' : St} {evs e : List Event} (hk : Known evs s) (hp : Listed evs s) (h : Tr mv s s' e) : Listed (evs ++ e) s' := by
  have hw : ∀ j ∈ s'.waiting, ∃ q ∈ Spec.queue (evs ++ e), q.id = j := by
    intro j hj
    rw [queue_append]
    rcases h.waits j hj with x | ⟨q, x, y⟩
    · obtain ⟨q, x, y⟩ := hp.wait j x
      exact ⟨q, List.mem_append_left _ x, y⟩
    · exact ⟨q, List.mem_append_right _ x, y⟩
  rcases h.queue_cases with hq | ⟨q, cb, he, hq⟩
  · refine ⟨?_, ?_, hw⟩
    · rw [queue_append, hq, List.append_nil]; exact hp.ids
    · rw [queue_append, hq, List.append_nil]; exact hp.nz
  · obtain ⟨it, it', r, place, h1, h2, h3, h4, h5, h6, h7, _⟩ := h.queued q.id q.cookie q.raw cb (by rw [he]; exact List.mem_cons_self)
    refine ⟨?_, ?_, hw⟩
    · rw [queue_append, hq, List.map_append, List.nodup_append]
      refine ⟨hp.ids, by simp, ?_⟩
      intro a ha b hb
      rw [List.map_cons, List.map_nil, List.mem_singleton] at hb
      rw [List.mem_map] at ha
      obtain ⟨p, hp1, hp2⟩ := ha
      obtain ⟨cb', hp1⟩ := (mem_queue evs p).mp hp1
      obtain ⟨x, x1, x2, _⟩ := hk.1 _ _ _ _ hp1
      intro e
      rw [hp2, e, hb, h1] at x1
      cases x1
      rw [h4] at x2; cases x2
    · rw [queue_append, hq]
      intro p hp'
      rw [List.mem_append, List.mem_singleton] at hp'
      rcases hp' with hp' | rfl
      · exact hp.nz p hp'
      · rw [h7]; exact seal_nz mv _ _ r h6 h5

theorem exec_listed (mv : Moves) (ops : List Op) (s : St) (evs : List Event) (h : exec mv init ops = some (s, evs)) : Inv s ∧ Known evs s ∧ Listed evs s := by
  have := exec_ind mv (fun evs s => Known evs s ∧ Listed evs s)
    (fun s s' evs e hi hp ht => ⟨hp.1.step hi ht, hp.2.step hp.1 ht⟩)
    ops init [] (s, evs) inv_init ⟨known_init, listed_init⟩ h
  exact this

/-- If all cookies differ the trace is clean. -/
theorem clean_from (mv : Moves) (ops : List Op) : ∀ (s : St) (pre : List Event) (r : St × List Event), Inv s → Known pre s → Listed pre s →
    exec mv s ops = some r → ((Spec.queue (pre ++ r.2)).map (·.cookie)).Nodup → Clean mv s ops := by
  induction ops with
  | nil => intro s pre r _ _ _ _ _; trivial
  | cons o t ih =>
    intro s pre r hi hk hl he hn a ha
    simp only [exec, ha, Option.bind_eq_bind, Option.bind_some, Option.bind_eq_some_iff, Option.some.injEq] at he
    obtain ⟨b, hb, rfl⟩ := he
    have htr := hi.step ha
    refine ⟨?_, ih a.1 (pre ++ a.2) b (htr.inv hi) (hk.step hi htr) (hl.step hk htr) hb (by rw [List.append_assoc]; exact hn)⟩
    intro q hq j hj
    cases e : s.hasCookie j q.cookie with
    | false => rfl
    | true =>
      exfalso
      obtain ⟨p, hp, hpj⟩ := hl.wait j hj
      obtain ⟨cb, hp'⟩ := (mem_queue pre p).mp hp
      obtain ⟨x, x1, _, _, x4, _⟩ := hk.1 _ _ _ _ hp'
      obtain ⟨y, y1, y2⟩ := (hasCookie_iff _ _ _).mp e
      rw [hpj, y1] at x1; cases x1
      simp only [queue_append, List.map_append] at hn
      have := (List.nodup_append.mp hn).2.2 p.cookie (List.mem_map_of_mem hp) q.cookie (List.mem_append_left _ (List.mem_map_of_mem hq))
      exact this (by rw [← x4, y2])

/-! ### Ordinary programs -/

/-- The messages are the same. -/
def SameMsgs (s s' : St) : Prop := s'.cookies = s.cookies ∧ ∀ j, (s'.heap j).map Item.msg = (s.heap j).map Item.msg

theorem SameMsgs.refl (s : St) : SameMsgs s s := ⟨rfl, fun _ => rfl⟩

theorem SameMsgs.trans {a b c : St} (h : SameMsgs a b) (k : SameMsgs b c) : SameMsgs a c := ⟨k.1.trans h.1, fun j => (k.2 j).trans (h.2 j)⟩

theorem same_mod (s : St) (id : Nat) (f : Item → Item) (hf : ∀ it, (f it).msg = it.msg) : SameMsgs s (s.mod id f) := by
  refine ⟨rfl, ?_⟩
  intro j
  rw [mod_heap]
  split
  · rw [Option.map_map]; congr 1; funext it; exact hf it
  · rfl

theorem same_linkWaiting (s : St) (id place : Nat) : SameMsgs s (linkWaiting s id place) := same_mod s id _ (fun _ => rfl)
theorem same_unlinkWaiting (s : St) (id c : Nat) : SameMsgs s (unlinkWaiting s id c) := same_mod s id _ (fun _ => rfl)
theorem same_linkOutgoing (s : St) (id : Nat) : SameMsgs s (linkOutgoing s id) := same_mod s id _ (fun _ => rfl)
theorem same_unlinkOutgoing (s : St) (id : Nat) : SameMsgs s (unlinkOutgoing s id) := same_mod s id _ (fun _ => rfl)

theorem same_drop (s : St) (id : Nat) (it : Item) : SameMsgs s (drop s id it) := by
  unfold drop
  split
  · exact same_unlinkOutgoing s id
  · split
    · exact same_unlinkWaiting s id _
    · exact SameMsgs.refl s

theorem same_write (s : St) (id : Nat) (it : Item) (res : Option Nat) : SameMsgs s (writeMessage s id it res).1 := by
  unfold writeMessage
  cases res with
  | none => exact same_mod s id _ (fun _ => rfl)
  | some n =>
    simp only
    split
    · exact same_mod s id _ (fun _ => rfl)
    · split
      · exact (same_mod s id (fun x => { x with isSending := true, sent := x.sent + min n ((it.msg.raw.getD []).length - it.sent) }) (fun _ => rfl)).trans (same_unlinkWaiting _ id _)
      · exact (same_mod s id (fun x => { x with isSending := true, sent := x.sent + min n ((it.msg.raw.getD []).length - it.sent) }) (fun _ => rfl)).trans (same_unlinkOutgoing _ id)

theorem same_attach (s s' : St) (h : attach s = some s') : SameMsgs s s' := by
  unfold attach at h
  split at h
  · cases h; exact SameMsgs.refl s
  split at h
  · cases h
  · cases h
    refine ⟨rfl, fun j => ?_⟩
    show Option.map _ (Option.map _ (s.heap j)) = _
    rw [Option.map_map]; congr 1; funext it
    simp only [Function.comp_apply]
    split <;> rfl

theorem same_detach (s s' : St) (h : detach s = some s') : SameMsgs s s' := by
  unfold detach at h
  split at h
  · cases h; exact SameMsgs.refl s
  split at h
  · cases h
  · cases h
    refine ⟨rfl, fun j => ?_⟩
    show Option.map _ (Option.map _ (s.heap j)) = _
    rw [Option.map_map]; congr 1; funext it
    simp only [Function.comp_apply]
    split <;> rfl

/-- What an ordinary step does to messages and counter. -/
inductive Eff (mv : Moves) (s : St) : Op → St → Prop
  | same (o : Op) (s' : St) (h : SameMsgs s s') : Eff mv s o s'
  | create (m : Msg) (s' : St) (h : s'.cookies = s.cookies) (hh : s'.heap = fun j => if j = s.next then some ⟨m, false, 0, false, false, false, false⟩ else s.heap j) : Eff mv s (.create m) s'
  | used (n : Nat) (s' : St) (h : s'.cookies = advance n s.cookies) (hh : s'.heap = s.heap) : Eff mv s (.used n) s'
  | sealed (o : Op) (id : Nat) (it : Item) (r : Int × Nat × Msg) (s' : St) (ho : cost o = 1) (h : s.heap id = some it) (hr : sealMsg mv s.cookies it.msg = some r)
      (hc : s'.cookies = r.2.1) (hj : ∀ j, j ≠ id → (s'.heap j).map Item.msg = (s.heap j).map Item.msg)
      (hi : ∃ x, s'.heap id = some x ∧ x.msg.cookie = r.2.2.cookie ∧ x.msg.type = r.2.2.type) : Eff mv s o s'

theorem eff_mod (mv : Moves) (s : St) (o : Op) (id : Nat) (it : Item) (r : Int × Nat × Msg) (ho : cost o = 1) (h : s.heap id = some it)
    (hr : sealMsg mv s.cookies it.msg = some r) (f : Item → Item) (hf : ∀ x, (f x).msg.cookie = r.2.2.cookie ∧ (f x).msg.type = r.2.2.type) (s' : St)
    (hs : SameMsgs ({ s with cookies := r.2.1 }.mod id f) s') : Eff mv s o s' := by
  refine Eff.sealed o id it r s' ho h hr hs.1 ?_ ?_
  · intro j hj
    rw [hs.2 j, mod_heap, if_neg hj]
  · have := hs.2 id
    rw [mod_heap, if_pos rfl] at this
    replace this : Option.map Item.msg (s'.heap id) = Option.map Item.msg (Option.map f (s.heap id)) := this
    rw [h] at this
    cases e : s'.heap id with
    | none => rw [e] at this; cases this
    | some x =>
      rw [e] at this
      simp only [Option.map_some, Option.some.injEq] at this
      exact ⟨x, rfl, by rw [this]; exact (hf it).1, by rw [this]; exact (hf it).2⟩

theorem step_eff (mv : Moves) (s : St) (o : Op) (r : St × List Event) (h : step mv s o = some r) (ho : Ordinary o) : Eff mv s o r.1 := by
  cases o with
  | create m => cases h; exact Eff.create m _ rfl rfl
  | setCookie id c => cases ho
  | sealIt id =>
    unfold step at h
    dsimp only at h
    split at h
    · cases h; exact Eff.same _ _ (SameMsgs.refl s)
    · rename_i it hit
      simp only [Option.bind_eq_bind, Option.bind_eq_some_iff, Option.some.injEq] at h
      obtain ⟨a, ha, rfl⟩ := h
      exact eff_mod mv s _ id it a rfl hit ha _ (fun _ => ⟨rfl, rfl⟩) _ (SameMsgs.refl _)
  | callAsync id cb place =>
    unfold step at h
    dsimp only at h
    split at h
    · cases h; exact Eff.same _ _ (SameMsgs.refl s)
    · rename_i it hit
      unfold callAsync at h
      split at h
      · cases h; exact Eff.same _ _ (SameMsgs.refl s)
      split at h
      · cases h; exact Eff.same _ _ (SameMsgs.refl s)
      simp only [Option.bind_eq_bind, Option.bind_eq_some_iff] at h
      obtain ⟨a, ha, h⟩ := h
      have em := fun f hf s' => eff_mod mv s (.callAsync id cb place) id it a rfl hit ha f hf s'
      split at h
      · cases h
        exact em (fun it => { it with msg := a.2.2 }) (fun _ => ⟨rfl, rfl⟩) _ (SameMsgs.refl _)
      split at h
      · cases h
        exact em (fun it => { it with msg := a.2.2 }) (fun _ => ⟨rfl, rfl⟩) _ (SameMsgs.refl _)
      split at h
      · cases h
        exact em (fun it => { it with msg := { a.2.2 with isUsed := true }, cb := cb }) (fun _ => ⟨rfl, rfl⟩) _ (SameMsgs.refl _)
      split at h
      · cases h
        exact em (fun it => { it with msg := { a.2.2 with isUsed := true }, cb := cb }) (fun _ => ⟨rfl, rfl⟩) _ (SameMsgs.refl _)
      · cases h
        exact em (fun it => { it with msg := { a.2.2 with isUsed := true }, cb := cb }) (fun _ => ⟨rfl, rfl⟩) _
          ((same_linkWaiting _ id place).trans (same_linkOutgoing _ id))
  | cancel c =>
    apply Eff.same
    unfold step at h
    dsimp only at h
    unfold cancel at h
    split at h
    · cases h; exact SameMsgs.refl s
    split at h
    · cases h; exact SameMsgs.refl s
    · simp only [Option.bind_eq_bind, Option.bind_eq_some_iff] at h
      obtain ⟨it, _, h⟩ := h
      split at h
      · cases h; exact same_drop s _ it
      · cases h
  | reply c =>
    apply Eff.same
    unfold step at h
    dsimp only at h
    split at h
    · cases h; exact SameMsgs.refl s
    unfold reply at h
    split at h
    · cases h; exact SameMsgs.refl s
    · simp only [Option.bind_eq_bind, Option.bind_eq_some_iff] at h
      obtain ⟨it, _, h⟩ := h
      split at h
      · cases h; exact same_drop s _ it
      · cases h
  | used n => cases h; exact Eff.used n _ rfl rfl
  | write res =>
    apply Eff.same
    unfold step at h
    dsimp only at h
    split at h
    · unfold write at h
      split at h
      · cases h; exact SameMsgs.refl s
      · simp only [Option.bind_eq_bind, Option.bind_eq_some_iff, Option.some.injEq] at h
        obtain ⟨it, _, h⟩ := h
        rw [← h]; exact same_write s _ it res
    · cases h; exact SameMsgs.refl s
  | timeout id =>
    apply Eff.same
    unfold step at h
    dsimp only at h
    split at h
    · cases h; exact SameMsgs.refl s
    · split at h
      · cases h
        exact (same_mod s id (fun it => { it with timer := false }) (fun _ => rfl)).trans (same_drop _ id _)
      · cases h; exact SameMsgs.refl s
  | attach =>
    apply Eff.same
    unfold step at h
    dsimp only at h
    rw [Option.map_eq_some_iff] at h
    obtain ⟨s1, h1, h2⟩ := h
    cases h2; exact same_attach s s1 h1
  | detach =>
    apply Eff.same
    unfold step at h
    dsimp only at h
    rw [Option.map_eq_some_iff] at h
    obtain ⟨s1, h1, h2⟩ := h
    cases h2; exact same_detach s s1 h1
  | hup =>
    apply Eff.same
    unfold step at h
    dsimp only at h
    split at h
    · unfold hup at h
      split at h
      · cases h; exact SameMsgs.refl s
      · rw [Option.map_eq_some_iff] at h
        obtain ⟨s1, h1, h2⟩ := h
        cases h2
        have := same_detach s s1 h1
        exact ⟨this.1, this.2⟩
    · cases h; exact SameMsgs.refl s

/-- The cookies of messages, as long as no counter wraps around. -/
structure CkInv (s : St) : Prop where
  loc : ∀ j it, s.heap j = some it → it.msg.type ≠ .reply → it.msg.cookie ≤ s.cookies
  rem : ∀ j it, s.heap j = some it → it.msg.type = .reply → it.msg.cookie = 0 ∨ isRemote it.msg.cookie = true
  inj : ∀ i j x y, s.heap i = some x → s.heap j = some y → x.msg.type ≠ .reply → y.msg.type ≠ .reply → x.msg.cookie ≠ 0 →
    x.msg.cookie = y.msg.cookie → i = j

theorem isRemote_remote (c : Nat) : isRemote (remote c) = true := by
  unfold isRemote remote REMOTE
  simp only [decide_eq_true_eq]
  omega

theorem isRemote_small (c : Nat) (h : c < 2 ^ 63) : isRemote c = false := by
  unfold isRemote REMOTE
  simp only [decide_eq_false_iff_not]
  omega

theorem nextCookie_small (c : Nat) (h : c + 1 < 2 ^ 63) : nextCookie c = c + 1 := by
  unfold nextCookie W64
  rw [Nat.mod_eq_of_lt (by omega), if_neg (by omega)]

theorem advance_small (n : Nat) : ∀ c, c + n < 2 ^ 63 → advance n c = c + n := by
  induction n with
  | zero => intro c _; rfl
  | succ n ih =>
    intro c h
    unfold advance
    rw [nextCookie_small c (by omega), ih (c + 1) (by omega)]
    omega

theorem SameMsgs.back {s s' : St} (h : SameMsgs s s') {j : Nat} {x : Item} (hx : s'.heap j = some x) : ∃ y, s.heap j = some y ∧ y.msg = x.msg := by
  have := h.2 j
  rw [hx] at this
  cases e : s.heap j with
  | none => rw [e] at this; cases this
  | some y => rw [e] at this; exact ⟨y, rfl, (Option.some.inj this).symm⟩

theorem CkInv.step {mv : Moves} {s s' : St} {o : Op} (hi : Inv s) (hc : CkInv s) (ho : Ordinary o) (hb : s.cookies + cost o < 2 ^ 63) (h : Eff mv s o s') :
    CkInv s' ∧ s'.cookies ≤ s.cookies + cost o := by
  cases h with
  | same _ _ h =>
    refine ⟨⟨?_, ?_, ?_⟩, by rw [h.1]; omega⟩
    · intro j x hx ht
      obtain ⟨y, y1, y2⟩ := h.back hx
      rw [h.1, ← y2]; rw [← y2] at ht
      exact hc.loc j y y1 ht
    · intro j x hx ht
      obtain ⟨y, y1, y2⟩ := h.back hx
      rw [← y2]; rw [← y2] at ht
      exact hc.rem j y y1 ht
    · intro i j x y hx hy tx ty nz e
      obtain ⟨x', x1, x2⟩ := h.back hx
      obtain ⟨y', y1, y2⟩ := h.back hy
      rw [← x2] at tx nz e
      rw [← y2] at ty e
      exact hc.inj i j x' y' x1 y1 tx ty nz e
  | create m _ h hh =>
    have hm : (if m.type = .reply then m.cookie = 0 ∨ isRemote m.cookie = true else m.cookie = 0) := ho.2.2
    refine ⟨⟨?_, ?_, ?_⟩, by rw [h]; omega⟩
    · intro j x hx ht
      rw [hh] at hx
      simp only at hx
      rw [h]
      split at hx
      · cases hx
        rw [if_neg ht] at hm
        show m.cookie ≤ _
        omega
      · exact hc.loc j x hx ht
    · intro j x hx ht
      rw [hh] at hx
      simp only at hx
      split at hx
      · cases hx
        rw [if_pos ht] at hm
        exact hm
      · exact hc.rem j x hx ht
    · intro i j x y hx hy tx ty nz e
      rw [hh] at hx hy
      simp only at hx hy
      split at hx
      · cases hx
        rw [if_neg tx] at hm
        exact absurd hm nz
      · split at hy
        · cases hy
          rw [if_neg ty] at hm
          exact absurd (e.trans hm) nz
        · exact hc.inj i j x y hx hy tx ty nz e
  | used n _ h hh =>
    have hcost : cost (.used n) = n := rfl
    rw [hcost] at hb
    rw [advance_small n s.cookies hb] at h
    refine ⟨⟨?_, ?_, ?_⟩, by rw [h, hcost]; omega⟩
    · intro j x hx ht
      rw [hh] at hx
      have := hc.loc j x hx ht
      omega
    · intro j x hx ht
      rw [hh] at hx
      exact hc.rem j x hx ht
    · intro i j x y hx hy
      rw [hh] at hx hy
      exact hc.inj i j x y hx hy
  | sealed _ id it r _ hco h hr hck hj hx =>
    rw [hco] at hb ⊢
    obtain ⟨x, x1, x2, x3⟩ := hx
    obtain ⟨ty, _, hcase⟩ := seal_cookie mv _ _ r hr
    rw [nextCookie_small s.cookies hb] at hcase
    have hcnt : s.cookies ≤ s'.cookies ∧ s'.cookies ≤ s.cookies + 1 := by
      rw [hck]
      rcases hcase with ⟨c1, _⟩ | ⟨_, c1, _⟩
      · omega
      · rw [c1]; split <;> omega
    have other : ∀ j y, j ≠ id → s'.heap j = some y → ∃ z, s.heap j = some z ∧ z.msg = y.msg := by
      intro j y hne hy
      have := hj j hne
      rw [hy] at this
      cases e : s.heap j with
      | none => rw [e] at this; cases this
      | some z => rw [e] at this; exact ⟨z, rfl, (Option.some.inj this).symm⟩
    -- the cookie of the sealed message
    have hnew : it.msg.type ≠ .reply → (x.msg.cookie = it.msg.cookie ∧ True) ∨ (it.msg.cookie = 0 ∧ x.msg.cookie = s.cookies + 1 ∧ s'.cookies = s.cookies + 1) := by
      intro ht
      rw [x2, hck]
      rcases hcase with ⟨_, c2⟩ | ⟨_, c1, c2⟩
      · left; rw [c2]; exact ⟨rfl, trivial⟩
      · rw [if_neg ht] at c2
        by_cases hz : it.msg.cookie = 0
        · right; rw [if_pos hz] at c1 c2; exact ⟨hz, c2, c1⟩
        · left; rw [if_neg hz] at c2; exact ⟨c2, trivial⟩
    refine ⟨⟨?_, ?_, ?_⟩, hcnt.2⟩
    · intro j y hy ht
      by_cases e : j = id
      · subst e
        rw [x1] at hy; cases hy
        rw [x3, ty] at ht
        rcases hnew ht with ⟨n1, _⟩ | ⟨_, n1, n2⟩
        · have := hc.loc j it h ht
          omega
        · omega
      · obtain ⟨z, z1, z2⟩ := other j y e hy
        rw [← z2] at ht ⊢
        have := hc.loc j z z1 ht
        omega
    · intro j y hy ht
      by_cases e : j = id
      · subst e
        rw [x1] at hy; cases hy
        rw [x3, ty] at ht
        rw [x2]
        rcases hcase with ⟨_, c2⟩ | ⟨_, _, c2⟩
        · rw [c2]; exact hc.rem j it h ht
        · right
          rw [c2, if_pos ht]
          exact isRemote_remote _
      · obtain ⟨z, z1, z2⟩ := other j y e hy
        rw [← z2] at ht ⊢
        exact hc.rem j z z1 ht
    · have mixed : ∀ j y, j ≠ id → s'.heap j = some y → it.msg.type ≠ .reply → y.msg.type ≠ .reply → x.msg.cookie ≠ 0 → x.msg.cookie ≠ y.msg.cookie := by
        intro j y hne hy t1 t2 nz e
        obtain ⟨z, z1, z2⟩ := other j y hne hy
        rw [← z2] at t2 e
        rcases hnew t1 with ⟨n1, _⟩ | ⟨_, n1, _⟩
        · rw [n1] at nz e
          exact hne (hc.inj id j it z h z1 t1 t2 nz e).symm
        · have := hc.loc j z z1 t2
          omega
      intro i j a b ha hb' ta tb nz e
      by_cases e1 : i = id
      · subst e1
        by_cases e2 : j = i
        · exact e2.symm
        · rw [x1] at ha; cases ha
          rw [x3, ty] at ta
          exact absurd e (mixed j b e2 hb' ta tb nz)
      · by_cases e2 : j = id
        · subst e2
          rw [x1] at hb'; cases hb'
          rw [x3, ty] at tb
          exact absurd e.symm (mixed i a e1 ha tb ta (by rw [← e]; exact nz))
        · obtain ⟨a', a1, a2⟩ := other i a e1 ha
          obtain ⟨b', b1, b2⟩ := other j b e2 hb'
          rw [← a2] at ta nz e
          rw [← b2] at tb e
          exact hc.inj i j a' b' a1 b1 ta tb nz e

theorem exec_ck (mv : Moves) (ops : List Op) : ∀ (s : St) (r : St × List Event), Inv s → CkInv s → (∀ o ∈ ops, Ordinary o) →
    s.cookies + (ops.map cost).sum < 2 ^ 63 → exec mv s ops = some r → CkInv r.1 ∧ r.1.cookies ≤ s.cookies + (ops.map cost).sum := by
  induction ops with
  | nil =>
    intro s r _ hc _ _ h
    cases h
    exact ⟨hc, by simp⟩
  | cons o t ih =>
    intro s r hi hc ho hb h
    simp only [exec, Option.bind_eq_bind, Option.bind_eq_some_iff, Option.some.injEq] at h
    obtain ⟨a, ha, b, hb', rfl⟩ := h
    simp only [List.map_cons, List.sum_cons] at hb ⊢
    have h1 := hc.step hi (ho o List.mem_cons_self) (by omega) (step_eff mv s o a ha (ho o List.mem_cons_self))
    have := ih a.1 b ((hi.step ha).inv hi) h1.1 (fun o ho' => ho o (List.mem_cons_of_mem _ ho')) (by omega) hb'
    exact ⟨this.1, by have h2 := h1.2; have h3 := this.2; omega⟩

theorem Tr.done_local {mv : Moves} {s s' : St} {e : List Event} (h : Tr mv s s' e) (id c : Nat) (hd : .done id (some c) ∈ e) : isRemote c = false := by
  have loc : ∀ i it it', Why s i it it' e → isRemote c = false := by
    intro i it it' hy
    cases hy with
    | cancel _ => simp at hd
    | reply _ hl _ =>
      obtain ⟨k, hk⟩ := hl
      rw [List.mem_cons] at hd
      rcases hd with hd | hd
      · cases hd
      · unfold complete at hd
        split at hd
        · rw [List.mem_singleton] at hd
          cases hd
          rw [hk]
          apply isRemote_small
          unfold local_ REMOTE
          omega
        · cases hd
    | timeout _ =>
      unfold complete at hd
      split at hd
      · rw [List.mem_singleton] at hd; cases hd
      · cases hd
  cases h with
  | idle c' _ h hc => exact absurd hd ((neutral_not s _ h).2.1 _ _)
  | create m => cases hd
  | setCookie id it c h => simp at hd
  | sealed id it r e h hr => simp at hd
  | refuse id it r cb h h1 h2 h3 hr => simp at hd
  | queue id it r raw cb place h h1 h2 h3 h4 hr h5 h6 hde h7 h8 => simp at hd
  | dropOut id it it' evs h hw h1 h2 hy => exact loc id it it' hy
  | dropWait id it it' evs h hw h1 hy => exact loc id it it' hy
  | block id rest it ho h ha => simp at hd
  | part id rest it n ho h hn ha => simp at hd
  | fullWait id rest it ho h hc hw' ha => simp at hd
  | fullOut id rest it ho h ha hc => simp at hd
  | timers att T hT hU hd' => cases hd
  | hup T hT hd' => simp at hd

theorem exec_join (mv : Moves) (p t : List Op) : ∀ (s a b : St) (e f : List Event), exec mv s p = some (a, e) → exec mv a t = some (b, f) →
    exec mv s (p ++ t) = some (b, e ++ f) := by
  induction p with
  | nil => intro s a b e f h k; cases h; exact k
  | cons o p ih =>
    intro s a b e f h k
    simp only [exec, Option.bind_eq_bind, Option.bind_eq_some_iff, Option.some.injEq, Prod.mk.injEq] at h
    obtain ⟨x, hx, y, hy, rfl, rfl⟩ := h
    have := ih x.1 y.1 b y.2 f hy k
    simp only [List.cons_append, exec, hx, this, Option.bind_eq_bind, Option.bind_some, List.append_assoc]

theorem nodup_map_on {α β : Type} (f : α → β) (l : List α) (h : ∀ p ∈ l, ∀ q ∈ l, f p = f q → p = q) (hn : l.Nodup) : (l.map f).Nodup := by
  induction l with
  | nil => exact List.nodup_nil
  | cons a t ih =>
    rw [List.nodup_cons] at hn
    rw [List.map_cons, List.nodup_cons]
    refine ⟨?_, ih (fun p hp q hq => h p (List.mem_cons_of_mem _ hp) q (List.mem_cons_of_mem _ hq)) hn.2⟩
    intro hm
    rw [List.mem_map] at hm
    obtain ⟨q, hq, e⟩ := hm
    exact hn.1 (h q (List.mem_cons_of_mem _ hq) a List.mem_cons_self e ▸ hq)

theorem nodup_of_map {α β : Type} (f : α → β) (l : List α) (hn : (l.map f).Nodup) : l.Nodup := by
  induction l with
  | nil => exact List.nodup_nil
  | cons a t ih =>
    rw [List.map_cons, List.nodup_cons] at hn
    rw [List.nodup_cons]
    exact ⟨fun h => hn.1 (List.mem_map_of_mem h), ih hn.2⟩

theorem sublist_sum {α : Type} (f : α → Nat) (a b : List α) (h : a.Sublist b) : (a.map f).sum ≤ (b.map f).sum := by
  induction h with
  | slnil => exact Nat.le_refl _
  | cons x _ ih => simp only [List.map_cons, List.sum_cons]; omega
  | cons_cons x _ ih => simp only [List.map_cons, List.sum_cons]; omega

theorem ck_init : CkInv init := ⟨(fun _ _ h => by cases h), (fun _ _ h => by cases h), (fun _ _ _ _ h => by cases h)⟩

end Verif.RtspBus
