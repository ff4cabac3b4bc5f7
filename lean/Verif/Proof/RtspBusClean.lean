import Verif.Proof.RtspBusCalls
/-! The table of waiting calls of the RTSP bus, as long as no cookie is used for two waiting calls: helper lemmas. -/
namespace Verif.RtspBus
open Verif.C Verif.Rtsp Verif.RtspBus.Spec

/-- The table holds exactly the waiting messages, each once, with different cookies; after a hang-up there are no timers. -/
structure WInv (s : St) : Prop where
  mem : ∀ j, j ∈ s.waiting ↔ ∃ it, s.heap j = some it ∧ it.isWaiting = true
  nodup : s.waiting.Nodup
  uniq : ∀ i j c, i ∈ s.waiting → j ∈ s.waiting → s.hasCookie i c = true → s.hasCookie j c = true → i = j
  dead : s.dead = true → s.attached = false ∧ ∀ j it, s.heap j = some it → it.timer = false

theorem winv_init : WInv init :=
  ⟨fun j => ⟨(fun h => by cases h), (fun h => by obtain ⟨_, h, _⟩ := h; cases h)⟩, List.nodup_nil, (fun _ _ _ h => by cases h), (fun h => by cases h)⟩

theorem eraseP_erase (l : List Nat) (p : Nat → Bool) (id : Nat) (h : ∀ j ∈ l, p j = true ↔ j = id) : l.eraseP p = l.erase id := by
  induction l with
  | nil => rfl
  | cons a t ih =>
    have ht := ih (fun j hj => h j (List.mem_cons_of_mem _ hj))
    have ha := h a List.mem_cons_self
    by_cases e : a = id
    · rw [List.eraseP_cons_of_pos (ha.mpr e), e, List.erase_cons_head]
    · rw [List.eraseP_cons_of_neg (fun x => e (ha.mp x)), List.erase_cons_tail (by simpa using e), ht]

theorem WInv.erased {s : St} (hw : WInv s) (id : Nat) (it : Item) (h : s.heap id = some it) (hwt : it.isWaiting = true) :
    s.waiting.eraseP (fun j => s.hasCookie j it.msg.cookie) = s.waiting.erase id := by
  apply eraseP_erase
  intro j hj
  have hid : s.hasCookie id it.msg.cookie = true := (hasCookie_iff _ _ _).mpr ⟨it, h, rfl⟩
  constructor
  · intro hc
    exact hw.uniq j id it.msg.cookie hj ((hw.mem id).mpr ⟨it, h, hwt⟩) hc hid
  · intro e; subst e; exact hid

theorem hasCookie_put (s s' : St) (id : Nat) (x : Item) (hh : s'.heap = fun j => if j = id then some x else s.heap j) (j c : Nat) :
    s'.hasCookie j c = true ↔ (j = id ∧ x.msg.cookie = c) ∨ (j ≠ id ∧ s.hasCookie j c = true) := by
  rw [hasCookie_iff, hasCookie_iff, hh]
  by_cases e : j = id
  · simp [e]
  · simp [e]

theorem WInv.put {s : St} (hw : WInv s) (id : Nat) (x : Item) (s' : St) (hh : s'.heap = fun j => if j = id then some x else s.heap j)
    (hm : ∀ j, j ∈ s'.waiting ↔ (j ≠ id ∧ j ∈ s.waiting) ∨ (j = id ∧ x.isWaiting = true)) (hn : s'.waiting.Nodup)
    (hc : x.isWaiting = true → ∀ j ∈ s.waiting, j ≠ id → s.hasCookie j x.msg.cookie = false)
    (hd : s'.dead = s.dead) (ha : s'.attached = s.attached) (ht : s.dead = true → x.timer = false) : WInv s' := by
  refine ⟨?_, hn, ?_, ?_⟩
  · intro j
    rw [hm, hh]
    by_cases e : j = id
    · simp [e]
    · simp [e, hw.mem j]
  · intro i j c hi hj hic hjc
    rw [hm] at hi hj
    rw [hasCookie_put s s' id x hh] at hic hjc
    rcases hi with ⟨i1, i2⟩ | ⟨i1, i2⟩
    · rcases hj with ⟨j1, j2⟩ | ⟨j1, j2⟩
      · have a : s.hasCookie i c = true := by rcases hic with h | h; exact absurd h.1 i1; exact h.2
        have b : s.hasCookie j c = true := by rcases hjc with h | h; exact absurd h.1 j1; exact h.2
        exact hw.uniq i j c i2 j2 a b
      · have a : s.hasCookie i c = true := by rcases hic with h | h; exact absurd h.1 i1; exact h.2
        have b : x.msg.cookie = c := by rcases hjc with h | h; exact h.2; exact absurd j1 h.1
        have := hc j2 i i2 i1
        rw [b, a] at this; cases this
    · rcases hj with ⟨j1, j2⟩ | ⟨j1, j2⟩
      · have a : s.hasCookie j c = true := by rcases hjc with h | h; exact absurd h.1 j1; exact h.2
        have b : x.msg.cookie = c := by rcases hic with h | h; exact h.2; exact absurd i1 h.1
        have := hc i2 j j2 j1
        rw [b, a] at this; cases this
      · rw [i1, j1]
  · intro hde
    rw [hd] at hde
    refine ⟨by rw [ha]; exact (hw.dead hde).1, ?_⟩
    intro j it hj
    rw [hh] at hj
    by_cases e : j = id
    · subst e
      simp only [if_pos] at hj
      cases hj
      exact ht hde
    · simp only [if_neg e] at hj
      exact (hw.dead hde).2 j it hj

/-- Changing a message that stays in or out of the table. -/
theorem WInv.same {s : St} (hw : WInv s) (id : Nat) (it x : Item) (s' : St) (h : s.heap id = some it)
    (hh : s'.heap = fun j => if j = id then some x else s.heap j)
    (hwt : s'.waiting = s.waiting) (hx : x.isWaiting = it.isWaiting) (hc : it.isWaiting = true → x.msg.cookie = it.msg.cookie)
    (hd : s'.dead = s.dead) (ha : s'.attached = s.attached) (ht : x.timer = true → it.timer = true) : WInv s' := by
  refine hw.put id x s' hh ?_ (by rw [hwt]; exact hw.nodup) ?_ hd ha ?_
  · intro j
    rw [hwt, hx]
    by_cases e : j = id
    · subst e
      rw [hw.mem j]
      simp [h]
    · simp [e]
  · intro hxw j hj hne
    rw [hx] at hxw
    rw [hc hxw]
    cases e : s.hasCookie j it.msg.cookie
    · rfl
    · exact absurd (hw.uniq j id _ hj ((hw.mem id).mpr ⟨it, h, hxw⟩) e ((hasCookie_iff _ _ _).mpr ⟨it, h, rfl⟩)) hne
  · intro hde
    cases e : x.timer
    · rfl
    · have := (hw.dead hde).2 id it h
      rw [ht e] at this; cases this

/-- Taking a message out of the table. -/
theorem WInv.gone {s : St} (hw : WInv s) (id : Nat) (it x : Item) (s' : St) (h : s.heap id = some it) (hwt : it.isWaiting = true)
    (hh : s'.heap = fun j => if j = id then some x else s.heap j)
    (hs : s'.waiting = s.waiting.eraseP (fun j => s.hasCookie j it.msg.cookie)) (hx : x.isWaiting = false)
    (hd : s'.dead = s.dead) (ha : s'.attached = s.attached) (ht : x.timer = false) : WInv s' := by
  rw [hw.erased id it h hwt] at hs
  refine hw.put id x s' hh ?_ (by rw [hs]; exact hw.nodup.erase _) (fun e => by rw [hx] at e; cases e) hd ha (fun _ => ht)
  intro j
  rw [hs, hw.nodup.mem_erase_iff, hx]
  simp

theorem Tr.winv {mv : Moves} {s s' : St} {evs : List Event} (h : Tr mv s s' evs) (hi : Inv s) (hw : WInv s)
    (hq : ∀ q ∈ RtspBus.Spec.queue evs, ∀ j ∈ s.waiting, s.hasCookie j q.cookie = false) : WInv s' := by
  cases h with
  | idle c' _ h hc => exact ⟨hw.mem, hw.nodup, hw.uniq, hw.dead⟩
  | create m =>
    have hnone := hi.fresh s.next (Nat.le_refl _)
    refine hw.put s.next ⟨m, false, 0, false, false, false, false⟩ _ rfl ?_ hw.nodup (fun h => by cases h) rfl rfl (fun _ => rfl)
    intro j
    show j ∈ s.waiting ↔ _
    by_cases e : j = s.next
    · rw [e, hw.mem, hnone]; simp
    · simp [e]
  | setCookie id it c h =>
    refine hw.same id it _ _ h (heap_mod s id _ it h) rfl rfl ?_ rfl rfl (fun h => h)
    intro e
    show (Rtsp.setCookie it.msg c).2.cookie = _
    rw [setCookie_sealed _ _ ((hi.item id it h).w e).2]
  | sealed id it r e h hr =>
    refine hw.same id it _ _ h (heap_mod { s with cookies := r.2.1 } id _ it h) rfl rfl ?_ rfl rfl (fun h => h)
    intro e
    show r.2.2.cookie = _
    rw [(seal_same mv _ _ r hr ((hi.item id it h).w e).2).1]
  | refuse id it r cb h h1 h2 h3 hr =>
    refine hw.same id it _ _ h (heap_mod { s with cookies := r.2.1 } id _ it h) rfl rfl ?_ rfl rfl (fun h => h)
    intro e
    rw [h2] at e; cases e
  | queue id it r raw cb place h h1 h2 h3 h4 hr h5 h6 hd h7 h8 =>
    have hni : id ∉ s.waiting := by
      rw [hw.mem]
      rintro ⟨x, hx, hxw⟩
      rw [h] at hx; cases hx
      rw [h2] at hxw; cases hxw
    refine hw.put id _ _ (queue_heap s id it r.2.1 r.2.2 cb place h) ?_ ?_ ?_ rfl rfl ?_
    · intro j
      show j ∈ s.waiting.take place ++ id :: s.waiting.drop place ↔ _
      rw [List.mem_append, List.mem_cons]
      have hs : j ∈ s.waiting ↔ j ∈ s.waiting.take place ∨ j ∈ s.waiting.drop place := by
        rw [← List.mem_append, List.take_append_drop]
      constructor
      · rintro (a | a | a)
        · exact Or.inl ⟨fun e => hni (e ▸ List.mem_of_mem_take a), hs.mpr (Or.inl a)⟩
        · exact Or.inr ⟨a, rfl⟩
        · exact Or.inl ⟨fun e => hni (e ▸ List.mem_of_mem_drop a), hs.mpr (Or.inr a)⟩
      · rintro (⟨_, a⟩ | ⟨a, _⟩)
        · rcases hs.mp a with a | a
          · exact Or.inl a
          · exact Or.inr (Or.inr a)
        · exact Or.inr (Or.inl a)
    · show (s.waiting.take place ++ id :: s.waiting.drop place).Nodup
      rw [List.perm_middle.nodup_iff, List.take_append_drop]
      exact List.nodup_cons.mpr ⟨hni, hw.nodup⟩
    · intro _ j hj _
      exact hq ⟨id, r.2.2.cookie, raw⟩ (by simp [RtspBus.Spec.queue, asCall]) j hj
    · intro e; rw [hd] at e; cases e
  | dropOut id it it' evs h hwt h1 h2 hy =>
    obtain ⟨e1, e2, e3, e4, e5, e6⟩ := why_same hy
    refine hw.same id it _ _ h rfl rfl e2 (fun _ => by show it'.msg.cookie = _; rw [e1]) rfl rfl ?_
    intro ht
    cases hy with
    | cancel _ => exact ht
    | reply _ _ _ => exact ht
    | timeout _ => cases ht
  | dropWait id it it' evs h hwt h1 hy => exact hw.gone id it _ _ h hwt rfl rfl rfl rfl rfl rfl
  | block id rest it ho h ha => exact hw.same id it _ _ h (heap_mod s id _ it h) rfl rfl (fun _ => rfl) rfl rfl (fun h => h)
  | part id rest it n ho h hn ha => exact hw.same id it _ _ h (heap_mod s id _ it h) rfl rfl (fun _ => rfl) rfl rfl (fun h => h)
  | fullWait id rest it ho h hc hwt ha => exact hw.gone id it _ _ h hwt rfl rfl rfl rfl rfl rfl
  | fullOut id rest it ho h ha hc => exact hw.same id it _ _ h rfl rfl rfl (fun _ => rfl) rfl rfl (fun h => h)
  | timers att T hT hU hd =>
    have hck : ∀ j c, St.hasCookie { s with attached := att, heap := fun j => (s.heap j).map fun it => { it with timer := T j it } } j c = s.hasCookie j c := by
      apply hasCookie_congr
      intro j
      show Option.map _ (Option.map _ (s.heap j)) = _
      rw [Option.map_map]; rfl
    refine ⟨?_, hw.nodup, ?_, ?_⟩
    · intro j
      show j ∈ s.waiting ↔ ∃ it, Option.map _ (s.heap j) = some it ∧ _
      rw [hw.mem j]
      cases s.heap j <;> simp
    · intro i j c a b c1 c2
      rw [hck] at c1 c2
      exact hw.uniq i j c a b c1 c2
    · intro hde
      obtain ⟨d1, d2⟩ := hw.dead hde
      have hatt : att = false := by
        cases e : att
        · rfl
        · have := hd hde e; rw [d1] at this; cases this
      refine ⟨hatt, ?_⟩
      intro j x hx
      replace hx : Option.map _ (s.heap j) = some x := hx
      rw [Option.map_eq_some_iff] at hx
      obtain ⟨it, hit, rfl⟩ := hx
      show T j it = false
      cases e : T j it
      · rfl
      · rcases hT j it hit e with t | ⟨_, _, t⟩
        · rw [d2 j it hit] at t; cases t
        · rw [hatt] at t; cases t
  | hup T hT hd =>
    have hck : ∀ j c, St.hasCookie { s with attached := false, dead := true, heap := fun j => (s.heap j).map fun it => { it with timer := T j it } } j c = s.hasCookie j c := by
      apply hasCookie_congr
      intro j
      show Option.map _ (Option.map _ (s.heap j)) = _
      rw [Option.map_map]; rfl
    refine ⟨?_, hw.nodup, ?_, ?_⟩
    · intro j
      show j ∈ s.waiting ↔ ∃ it, Option.map _ (s.heap j) = some it ∧ _
      rw [hw.mem j]
      cases s.heap j <;> simp
    · intro i j c a b c1 c2
      rw [hck] at c1 c2
      exact hw.uniq i j c a b c1 c2
    · intro _
      refine ⟨rfl, ?_⟩
      intro j x hx
      replace hx : Option.map _ (s.heap j) = some x := hx
      rw [Option.map_eq_some_iff] at hx
      obtain ⟨it, hit, rfl⟩ := hx
      show T j it = false
      cases e : T j it
      · rfl
      · obtain ⟨t, hn⟩ := hT j it hit e
        exact absurd ((hw.mem j).mpr ⟨it, hit, ((hi.item j it hit).t t).1⟩) hn

/-- Induction over clean traces. -/
theorem exec_clean (mv : Moves) (P : List Event → St → Prop)
    (hstep : ∀ s s' evs e, Inv s → WInv s → P evs s → Tr mv s s' e → WInv s' → P (evs ++ e) s') (ops : List Op) :
    ∀ (s : St) (pre : List Event), Inv s → WInv s → P pre s → Clean mv s ops → ∀ r, exec mv s ops = some r → Inv r.1 ∧ WInv r.1 ∧ P (pre ++ r.2) r.1 := by
  induction ops with
  | nil =>
    intro s pre hi hw hp _ r hr
    simp only [exec, Option.some.injEq] at hr
    subst hr
    exact ⟨hi, hw, by simpa using hp⟩
  | cons o t ih =>
    intro s pre hi hw hp hc r hr
    simp only [exec, Option.bind_eq_bind, Option.bind_eq_some_iff, Option.some.injEq] at hr
    obtain ⟨a, ha, b, hb, rfl⟩ := hr
    have htr := hi.step ha
    obtain ⟨hcq, hct⟩ := hc a ha
    have hw' := htr.winv hi hw hcq
    have := ih a.1 (pre ++ a.2) (htr.inv hi) hw' (hstep s a.1 pre a.2 hi hw hp htr hw') hct b hb
    rw [List.append_assoc] at this
    exact this

/-- Nothing stale in the table. -/
theorem WInv.not_stale {s : St} (hw : WInv s) : s.stale = false := by
  unfold St.stale
  rw [List.any_eq_false]
  intro j hj
  obtain ⟨it, h1, h2⟩ := (hw.mem j).mp hj
  rw [h1]
  simp [h2]

/-- In a clean state a step is undefined only if sealing a message is. -/
theorem WInv.step_none {mv : Moves} {s : St} (hi : Inv s) (hw : WInv s) (o : Op) (h : step mv s o = none) :
    ∃ id it, s.heap id = some it ∧ sealMsg mv s.cookies it.msg = none := by
  have look : ∀ c id, s.lookup c = some id → ∃ it, s.heap id = some it ∧ it.isWaiting = true := by
    intro c id hl
    exact (hw.mem id).mp (lookup_some s c id hl).1
  cases o with
  | create m => cases h
  | setCookie id c =>
    unfold step at h
    dsimp only at h
    split at h
    · cases h
    · cases h
  | sealIt id =>
    unfold step at h
    dsimp only at h
    split at h
    · cases h
    · rename_i it hit
      refine ⟨id, it, hit, ?_⟩
      cases e : sealMsg mv s.cookies it.msg with
      | none => rfl
      | some r => rw [e] at h; cases h
  | callAsync id cb place =>
    unfold step at h
    dsimp only at h
    split at h
    · cases h
    · rename_i it hit
      refine ⟨id, it, hit, ?_⟩
      cases e : sealMsg mv s.cookies it.msg with
      | none => rfl
      | some r =>
        unfold callAsync at h
        rw [e] at h
        split at h
        · cases h
        split at h
        · cases h
        simp only [Option.bind_eq_bind, Option.bind_some] at h
        split at h
        · cases h
        split at h
        · cases h
        split at h
        · cases h
        split at h
        · cases h
        · cases h
  | cancel c =>
    unfold step at h
    dsimp only at h
    unfold cancel at h
    split at h
    · cases h
    split at h
    · cases h
    · rename_i id hl
      obtain ⟨it, h1, h2⟩ := look c id hl
      rw [h1] at h
      simp [h2] at h
  | reply c =>
    unfold step at h
    dsimp only at h
    split at h
    · cases h
    unfold reply at h
    split at h
    · cases h
    · rename_i id hl
      obtain ⟨it, h1, h2⟩ := look _ id hl
      rw [h1] at h
      simp [h2] at h
  | used n => cases h
  | write res =>
    unfold step at h
    dsimp only at h
    split at h
    · unfold write at h
      split at h
      · cases h
      · rename_i id t ho
        obtain ⟨it, hit⟩ := hi.outs id (by rw [ho]; exact List.mem_cons_self)
        rw [hit] at h
        cases h
    · cases h
  | timeout id =>
    unfold step at h
    dsimp only at h
    split at h
    · cases h
    · split at h
      · cases h
      · cases h
  | attach =>
    unfold step at h
    dsimp only at h
    unfold attach at h
    rw [hw.not_stale] at h
    split at h <;> simp at h
  | detach =>
    unfold step at h
    dsimp only at h
    unfold detach at h
    rw [hw.not_stale] at h
    split at h <;> simp at h
  | hup =>
    unfold step at h
    dsimp only at h
    unfold hup detach at h
    rw [hw.not_stale] at h
    split at h
    · split at h
      · cases h
      · split at h <;> simp at h
    · cases h

/-- A trace is undefined because some step of it is. -/
theorem exec_none (mv : Moves) (ops : List Op) : ∀ s, exec mv s ops = none →
    ∃ p o t r, ops = p ++ o :: t ∧ exec mv s p = some r ∧ step mv r.1 o = none := by
  induction ops with
  | nil => intro s h; cases h
  | cons o t ih =>
    intro s h
    cases e : step mv s o with
    | none => exact ⟨[], o, t, (s, []), rfl, rfl, e⟩
    | some a =>
      simp only [exec, e, Option.bind_eq_bind, Option.bind_some] at h
      cases e2 : exec mv a.1 t with
      | some b => rw [e2] at h; cases h
      | none =>
        obtain ⟨p, o', t', r, h1, h2, h3⟩ := ih a.1 e2
        refine ⟨o :: p, o', t', (r.1, a.2 ++ r.2), by rw [h1]; rfl, ?_, h3⟩
        simp only [exec, e, h2, Option.bind_eq_bind, Option.bind_some]

theorem clean_prefix (mv : Moves) (p t : List Op) : ∀ s, Clean mv s (p ++ t) → Clean mv s p := by
  induction p with
  | nil => intro s _; trivial
  | cons o p ih =>
    intro s h r hr
    obtain ⟨h1, h2⟩ := h r hr
    exact ⟨h1, ih r.1 h2⟩

theorem exec_append (mv : Moves) (p t : List Op) : ∀ s r, exec mv s (p ++ t) = some r →
    ∃ a b, exec mv s p = some a ∧ exec mv a.1 t = some b ∧ r = (b.1, a.2 ++ b.2) := by
  induction p with
  | nil => intro s r h; exact ⟨(s, []), r, rfl, h, rfl⟩
  | cons o p ih =>
    intro s r h
    simp only [List.cons_append, exec, Option.bind_eq_bind, Option.bind_eq_some_iff, Option.some.injEq] at h
    obtain ⟨a, ha, b, hb, rfl⟩ := h
    obtain ⟨x, y, h1, h2, h3⟩ := ih a.1 b hb
    refine ⟨(x.1, a.2 ++ x.2), y, ?_, h2, ?_⟩
    · simp only [exec, ha, h1, Option.bind_eq_bind, Option.bind_some]
    · rw [h3]; simp

theorem clean_rest (mv : Moves) (p t : List Op) : ∀ s a, Clean mv s (p ++ t) → exec mv s p = some a → Clean mv a.1 t := by
  induction p with
  | nil => intro s a h he; simp only [exec, Option.some.injEq] at he; rw [← he]; exact h
  | cons o p ih =>
    intro s a h he
    simp only [exec, Option.bind_eq_bind, Option.bind_eq_some_iff, Option.some.injEq] at he
    obtain ⟨x, hx, y, hy, rfl⟩ := he
    exact ih x.1 y (h x hx).2 hy

/-- Once dead, dead. -/
theorem Tr.stays_dead {mv : Moves} {s s' : St} {evs : List Event} (h : Tr mv s s' evs) (hd : s.dead = true) : s'.dead = true := by
  cases h <;> first | exact hd | rfl

/-- After a hang-up nothing completes and nothing is written. -/
def Quiet (evs : List Event) (s : St) : Prop :=
  (.hup ∈ evs → s.dead = true) ∧ ∀ a b, evs = a ++ .hup :: b → (∀ j x, .done j x ∉ b) ∧ (∀ j bs, .wrote j bs ∉ b) ∧ (∀ j c r cb, .queued j c r cb ∉ b) ∧ .hup ∉ b

/-- The step tells of a hang-up only when it happens. -/
theorem Tr.hups {mv : Moves} {s s' : St} {evs : List Event} (h : Tr mv s s' evs) (hm : .hup ∈ evs) : s.dead = false ∧ s'.dead = true ∧ evs = [.hup] := by
  cases h with
  | idle c' _ h hc => exact absurd hm ((neutral_not s _ h).2.2.2)
  | create m => cases hm
  | setCookie id it c h => simp at hm
  | sealed id it r e h hr => simp at hm
  | refuse id it r cb h h1 h2 h3 hr => simp at hm
  | queue id it r raw cb place h h1 h2 h3 h4 hr h5 h6 hd h7 h8 => simp at hm
  | dropOut id it it' evs h hw' h1 h2 hy => exact absurd hm (why_not hy).2
  | dropWait id it it' evs h hw' h1 hy => exact absurd hm (why_not hy).2
  | block id rest it ho h ha => simp at hm
  | part id rest it n ho h hn ha => simp at hm
  | fullWait id rest it ho h hc hw' ha => simp at hm
  | fullOut id rest it ho h ha hc => simp at hm
  | timers att T hT hU hd => cases hm
  | hup T hT hd => exact ⟨hd, rfl, rfl⟩

theorem Tr.wrote_attached {mv : Moves} {s s' : St} {evs : List Event} (h : Tr mv s s' evs) (j : Nat) (bs : List Byte) (hm : .wrote j bs ∈ evs) :
    s.attached = true := by
  cases h with
  | idle c' _ h hc => exact absurd hm ((neutral_not s _ h).1 j bs)
  | create m => cases hm
  | setCookie id it c h => simp at hm
  | sealed id it r e h hr => simp at hm
  | refuse id it r cb h h1 h2 h3 hr => simp at hm
  | queue id it r raw cb place h h1 h2 h3 h4 hr h5 h6 hd h7 h8 => simp at hm
  | dropOut id it it' evs h hw' h1 h2 hy => exact absurd hm (why_not_wrote hy j bs)
  | dropWait id it it' evs h hw' h1 hy => exact absurd hm (why_not_wrote hy j bs)
  | block id rest it ho h ha => exact ha
  | part id rest it n ho h hn ha => exact ha
  | fullWait id rest it ho h hc hw' ha => exact ha
  | fullOut id rest it ho h ha hc => exact ha
  | timers att T hT hU hd => cases hm
  | hup T hT hd => simp at hm

theorem Tr.queued_alive {mv : Moves} {s s' : St} {evs : List Event} (h : Tr mv s s' evs) (j c : Nat) (raw : List Byte) (cb : Bool)
    (hm : .queued j c raw cb ∈ evs) : s.dead = false := by
  cases h with
  | idle c' _ h hc => exact absurd hm ((neutral_not s _ h).2.2.1 _ _ _ _)
  | create m => cases hm
  | setCookie id it c h => simp at hm
  | sealed id it r e h hr => simp at hm
  | refuse id it r cb h h1 h2 h3 hr => simp at hm
  | queue id it r raw cb place h h1 h2 h3 h4 hr h5 h6 hd h7 h8 => exact hd
  | dropOut id it it' evs h hw' h1 h2 hy => exact absurd hm ((why_not hy).1 _ _ _ _)
  | dropWait id it it' evs h hw' h1 hy => exact absurd hm ((why_not hy).1 _ _ _ _)
  | block id rest it ho h ha => simp at hm
  | part id rest it n ho h hn ha => simp at hm
  | fullWait id rest it ho h hc hw' ha => simp at hm
  | fullOut id rest it ho h ha hc => simp at hm
  | timers att T hT hU hd => cases hm
  | hup T hT hd => simp at hm

theorem Quiet.step {mv : Moves} {s s' : St} {evs e : List Event} (hw : WInv s) (hp : Quiet evs s) (h : Tr mv s s' e) : Quiet (evs ++ e) s' := by
  refine ⟨?_, ?_⟩
  · intro hm
    rw [List.mem_append] at hm
    rcases hm with hm | hm
    · exact h.stays_dead (hp.1 hm)
    · exact (h.hups hm).2.1
  · intro a b hs
    rcases split_done _ _ _ _ _ hs with ⟨b', h1, h2⟩ | ⟨a', h1, h2⟩
    · have hde := hp.1 (by rw [h1]; simp)
      obtain ⟨p1, p2, p3, p4⟩ := hp.2 a b' h1
      obtain ⟨w1, w2⟩ := hw.dead hde
      subst h2
      refine ⟨?_, ?_, ?_, ?_⟩
      · intro j x hm
        rw [List.mem_append] at hm
        rcases hm with hm | hm
        · exact p1 j x hm
        · obtain ⟨it, i1, i2, i3, ⟨_, _, t⟩ | ⟨_, _, t⟩⟩ := h.done j x hm
          · rw [w2 j it i1] at t; cases t
          · rw [hde] at t; cases t
      · intro j bs hm
        rw [List.mem_append] at hm
        rcases hm with hm | hm
        · exact p2 j bs hm
        · have := h.wrote_attached j bs hm
          rw [w1] at this; cases this
      · intro j c r cb hm
        rw [List.mem_append] at hm
        rcases hm with hm | hm
        · exact p3 j c r cb hm
        · have := h.queued_alive j c r cb hm
          rw [hde] at this; cases this
      · intro hm
        rw [List.mem_append] at hm
        rcases hm with hm | hm
        · exact p4 hm
        · have := (h.hups hm).1
          rw [hde] at this; cases this
    · have he := (h.hups (by rw [h2]; simp)).2.2
      rw [he] at h2
      cases a' with
      | nil =>
        simp only [List.nil_append, List.cons.injEq] at h2
        rw [← h2.2]
        exact ⟨(fun _ _ x => by cases x), (fun _ _ x => by cases x), (fun _ _ _ _ x => by cases x), (fun x => by cases x)⟩
      | cons y a' =>
        have := congrArg List.length h2
        simp at this

theorem quiet_init : Quiet [] init := by
  refine ⟨(fun h => by cases h), ?_⟩
  intro a b h
  cases a <;> cases h

/-- Cancelling a call whose transmission was begun: it cannot complete any more. -/
theorem cancel_started {mv : Moves} {s s' : St} {e : List Event} (hi : Inv s) (hw : WInv s) (id : Nat) (it : Item) (h : s.heap id = some it)
    (hu : it.msg.isUsed = true) (hl : left (s.heap id) ≤ 1) (hne : it.msg.cookie ≠ 0) (hs : step mv s (.cancel it.msg.cookie) = some (s', e)) : left (s'.heap id) = 0 := by
  cases hwt : it.isWaiting with
  | false =>
    have h0 : left (s.heap id) = 0 := by
      rw [h]; unfold left; simp only; rw [if_neg (by rw [hu]; simp), if_pos hwt]
    have := (hi.step hs).left hi id
    simp only at this
    omega
  | true =>
    have hin := (hw.mem id).mpr ⟨it, h, hwt⟩
    have hlook : s.lookup it.msg.cookie = some id := by
      cases e : s.lookup it.msg.cookie with
      | none =>
        have := List.find?_eq_none.mp e id hin
        exact absurd ((hasCookie_iff _ _ _).mpr ⟨it, h, rfl⟩) this
      | some j =>
        obtain ⟨j1, y, j2, j3⟩ := lookup_some s _ j e
        rw [hw.uniq j id it.msg.cookie j1 hin ((hasCookie_iff _ _ _).mpr ⟨y, j2, j3⟩) ((hasCookie_iff _ _ _).mpr ⟨it, h, rfl⟩)]
    have hso : ¬ (it.isSending = false ∧ it.isOutgoing = true) := by
      rintro ⟨a, b⟩
      rw [h] at hl
      unfold left at hl
      simp only at hl
      rw [if_neg (by rw [hu]; simp), if_neg (by rw [hwt]; simp), if_pos ⟨b, a⟩] at hl
      omega
    unfold step at hs
    dsimp only at hs
    unfold cancel at hs
    rw [if_neg hne, hlook] at hs
    simp only [h, Option.bind_eq_bind, Option.bind_some] at hs
    rw [if_pos hwt] at hs
    unfold drop at hs
    rw [if_neg hso, if_pos hwt] at hs
    simp only [Option.some.injEq, Prod.mk.injEq] at hs
    rw [← hs.1]
    unfold unlinkWaiting
    rw [mod_eq s id _ it h]
    show RtspBus.left (if id = id then _ else _) = 0
    rw [if_pos rfl]
    unfold left
    simp only
    rw [if_neg (by rw [hu]; simp)]
    simp

end Verif.RtspBus
