import Verif.Spec.WpasBus
/-! # Invariant of the wpa_supplicant control bus -/
namespace Verif.WpasBus
open Verif.C

theorem get_set {l : List Obj} {id : Nat} {o : Obj} (h : l[id]? = some o) (o' : Obj) (j : Nat) :
    (l.set id o')[j]? = if j = id then some o' else l[j]? := by
  have hlt : id < l.length := by
    rcases Nat.lt_or_ge id l.length with h' | h'
    · exact h'
    · rw [List.getElem?_eq_none h'] at h; simp at h
  rw [List.getElem?_set]
  by_cases hj : j = id
  · subst hj; simp [hlt]
  · rw [if_neg (fun e => hj e.symm), if_neg hj]

/-- The bus and what a reader of the trace knows agree. -/
structure Inv (w : Bus) (s : Spec.St) : Prop where
  queue : w.queue = s.flying ++ s.unsent.map (·.1)
  short : s.flying.length ≤ 1
  orderly : s.orderly = true
  nodup : w.queue.Nodup
  flying : ∀ id ∈ s.flying, ∃ o, w.objs[id]? = some o ∧ o.sent = true ∧ o.cookie ≠ 0 ∧
    (id, o.cookie, o.hasCb) ∈ s.calls ∧ (o.removed = true ↔ id ∈ s.dropped)
  unsent : ∀ u ∈ s.unsent, ∃ o, w.objs[u.1]? = some o ∧ o.sent = false ∧
    (u.2 = true → o.cookie ≠ 0 ∧ (u.1, o.cookie, o.hasCb) ∈ s.calls ∧ u.1 ∉ s.dropped) ∧
    (u.2 = false → o.cookie = 0)
  queued : ∀ (id : Nat) (o : Obj), w.objs[id]? = some o → (o.queued = true ↔ id ∈ w.queue)
  removed : ∀ (id : Nat) (o : Obj), w.objs[id]? = some o → o.removed = true → o.sent = true
  calls : ∀ k ∈ s.calls, ∃ o, w.objs[k.1]? = some o ∧ o.isSealed = true ∧ o.hasPeer = true
  ids : (s.calls.map (·.1)).Nodup
  cookies : (s.calls.map (·.2.1)).Nodup
  below : ∀ k ∈ s.calls, 1 ≤ k.2.1 ∧ k.2.1 ≤ w.cookies
  dropped : ∀ id ∈ s.dropped, id ∈ s.calls.map (·.1)
  answers : ∀ a ∈ s.answers, a.1 ∉ w.queue ∧ ∃ o, w.objs[a.1]? = some o ∧ o.sent = true
  once : (s.answers.map (·.1)).Nodup

/-- A piece of a trace keeps the agreement, and the callbacks in it are those expected. -/
def Keeps (s : Spec.St) (w' : Bus) (evs : List Ev) : Prop :=
  Inv w' (evs.foldl Spec.St.next s) ∧ (evs.foldl Spec.St.next s).answers = s.answers ++ Spec.answered evs

theorem Keeps.nil {w : Bus} {s : Spec.St} (h : Inv w s) : Keeps s w [] := ⟨h, by simp [Spec.answered]⟩

theorem answered_append (a b : List Ev) : Spec.answered (a ++ b) = Spec.answered a ++ Spec.answered b := by
  simp [Spec.answered, List.filterMap_append]

theorem Keeps.trans {s : Spec.St} {w w' : Bus} {a b : List Ev} (h : Keeps s w a)
    (h' : Keeps (a.foldl Spec.St.next s) w' b) : Keeps s w' (a ++ b) := by
  refine ⟨?_, ?_⟩
  · rw [List.foldl_append]; exact h'.1
  · rw [List.foldl_append, h'.2, h.2, answered_append, List.append_assoc]

/-- Changes of an object that are no concern of the queue. -/
theorem Inv.touch {w : Bus} {s : Spec.St} (h : Inv w s) {id : Nat} {o : Obj} (ho : w.objs[id]? = some o) (o' : Obj)
    (h1 : o'.sent = o.sent) (h2 : o'.cookie = o.cookie) (h3 : o'.hasCb = o.hasCb) (h4 : o'.removed = o.removed)
    (h5 : o'.queued = o.queued) (h6 : o.isSealed = true → o'.isSealed = true)
    (h7 : o.isSealed = true → o.hasPeer = true → o'.hasPeer = true) : Inv (setObj w id o') s := by
  have key : ∀ (j : Nat) (x : Obj), w.objs[j]? = some x → ∃ x' : Obj, (setObj w id o').objs[j]? = some x' ∧ x'.sent = x.sent ∧
      x'.cookie = x.cookie ∧ x'.hasCb = x.hasCb ∧ x'.removed = x.removed ∧ x'.queued = x.queued ∧
      (x.isSealed = true → x'.isSealed = true) ∧ (x.isSealed = true → x.hasPeer = true → x'.hasPeer = true) := by
    intro j x hx
    show ∃ x' : Obj, (w.objs.set id o')[j]? = some x' ∧ _
    rw [get_set ho]
    by_cases hj : j = id
    · subst hj
      rw [ho] at hx
      cases hx
      exact ⟨o', by simp, h1, h2, h3, h4, h5, h6, h7⟩
    · exact ⟨x, by rw [if_neg hj]; exact hx, rfl, rfl, rfl, rfl, rfl, fun a => a, fun _ a => a⟩
  have back : ∀ (j : Nat) (x' : Obj), (setObj w id o').objs[j]? = some x' → ∃ x : Obj, w.objs[j]? = some x ∧ x'.sent = x.sent ∧
      x'.removed = x.removed ∧ x'.queued = x.queued := by
    intro j x' hx
    have hx : (w.objs.set id o')[j]? = some x' := hx
    rw [get_set ho] at hx
    by_cases hj : j = id
    · subst hj
      rw [if_pos rfl] at hx
      cases hx
      exact ⟨o, ho, h1, h4, h5⟩
    · rw [if_neg hj] at hx
      exact ⟨x', hx, rfl, rfl, rfl⟩
  exact {
    queue := h.queue, short := h.short, orderly := h.orderly, nodup := h.nodup
    flying := fun i hi => by
      obtain ⟨x, hx, a, b, c, d⟩ := h.flying i hi
      obtain ⟨x', hx', e1, e2, e3, e4, -⟩ := key i x hx
      exact ⟨x', hx', by rw [e1, a], by rw [e2]; exact b, by rw [e2, e3]; exact c, by rw [e4]; exact d⟩
    unsent := fun u hu => by
      obtain ⟨x, hx, a, b, c⟩ := h.unsent u hu
      obtain ⟨x', hx', e1, e2, e3, e4, -⟩ := key u.1 x hx
      exact ⟨x', hx', by rw [e1, a], by rw [e2, e3]; exact b, by rw [e2]; exact c⟩
    queued := fun i x' hx' => by
      obtain ⟨x, hx, -, -, e⟩ := back i x' hx'
      rw [e]; exact h.queued i x hx
    removed := fun i x' hx' hr => by
      obtain ⟨x, hx, e1, e2, -⟩ := back i x' hx'
      rw [e1]; exact h.removed i x hx (by rw [← e2]; exact hr)
    calls := fun k hk => by
      obtain ⟨x, hx, a, b⟩ := h.calls k hk
      obtain ⟨x', hx', -, -, -, -, -, e6, e7⟩ := key k.1 x hx
      exact ⟨x', hx', e6 a, e7 a b⟩
    ids := h.ids, cookies := h.cookies, below := h.below, dropped := h.dropped
    answers := fun a ha => by
      obtain ⟨h1, x, hx, hs⟩ := h.answers a ha
      obtain ⟨x', hx', e1, -⟩ := key a.1 x hx
      exact ⟨h1, x', hx', by rw [e1, hs]⟩
    once := h.once }

/-- Enqueueing a message that is not in the queue. -/
theorem Inv.enqueue {w : Bus} {s : Spec.St} (h : Inv w s) {id : Nat} {o : Obj} (ho : w.objs[id]? = some o)
    (hq : o.queued = false) (hs : o.sent = false) (o' : Obj) (h1 : o'.sent = false) (h4 : o'.removed = o.removed)
    (h5 : o'.queued = true) (h6 : o'.isSealed = true) (h7 : o'.hasPeer = true)
    (c : Nat) (call : Bool) (calls' : List (Nat × Nat × Bool))
    (hcall : call = true → o'.cookie ≠ 0 ∧ calls' = s.calls ++ [(id, o'.cookie, o'.hasCb)] ∧ o.hasPeer = false ∧
      o'.cookie = w.cookies + 1 ∧ c = w.cookies + 1)
    (hsend : call = false → o'.cookie = 0 ∧ calls' = s.calls ∧ c = w.cookies) :
    Inv { setObj w id o' with queue := w.queue ++ [id], cookies := c }
      { s with calls := calls', unsent := s.unsent ++ [(id, call)] } := by
  have hnq : id ∉ w.queue := fun hm => by
    have := (h.queued id o ho).mpr hm
    rw [hq] at this; simp at this
  have hsub : ∀ k ∈ s.calls, k ∈ calls' := by
    intro k hk
    cases call with
    | true => rw [(hcall rfl).2.1]; simp [hk]
    | false => rw [(hsend rfl).2.1]; exact hk
  have hnc : call = true → id ∉ s.calls.map (·.1) := by
    intro hc hm
    obtain ⟨k, hk, e⟩ := List.mem_map.mp hm
    obtain ⟨x, hx, -, hp⟩ := h.calls k hk
    rw [e, ho] at hx
    cases hx
    rw [(hcall hc).2.2.1] at hp; simp at hp
  have hget : ∀ j, ({ setObj w id o' with queue := w.queue ++ [id], cookies := c } : Bus).objs[j]? =
      if j = id then some o' else w.objs[j]? := fun j => get_set ho o' j
  have hne : ∀ j, j ∈ w.queue → j ≠ id := fun j hj e => hnq (e ▸ hj)
  have hmemq : ∀ j, j ∈ s.flying ∨ j ∈ s.unsent.map (·.1) → j ∈ w.queue := by
    intro j hj; rw [h.queue]; simpa using hj
  exact {
    queue := by
      show w.queue ++ [id] = s.flying ++ (s.unsent ++ [(id, call)]).map (·.1)
      rw [h.queue]; simp
    short := h.short, orderly := h.orderly
    nodup := by
      show (w.queue ++ [id]).Nodup
      rw [List.nodup_append]
      refine ⟨h.nodup, by simp, ?_⟩
      intro a ha b hb
      simp only [List.mem_singleton] at hb
      subst hb
      exact hne a ha
    flying := fun i hi => by
      obtain ⟨x, hx, a, b, d, e⟩ := h.flying i hi
      refine ⟨x, ?_, a, b, hsub _ d, e⟩
      rw [hget, if_neg (hne i (hmemq i (Or.inl hi)))]; exact hx
    unsent := fun u hu => by
      rcases List.mem_append.mp hu with hu | hu
      · obtain ⟨x, hx, a, b, d⟩ := h.unsent u hu
        refine ⟨x, ?_, a, fun hc => ⟨(b hc).1, hsub _ (b hc).2.1, (b hc).2.2⟩, d⟩
        rw [hget, if_neg (hne u.1 (hmemq u.1 (Or.inr (List.mem_map.mpr ⟨u, hu, rfl⟩))))]; exact hx
      · simp only [List.mem_singleton] at hu
        subst hu
        refine ⟨o', by rw [hget, if_pos rfl], h1, fun hc => ?_, fun hc => (hsend hc).1⟩
        refine ⟨(hcall hc).1, ?_, fun hd => hnc hc (h.dropped id hd)⟩
        show _ ∈ calls'
        rw [(hcall hc).2.1]; simp
    queued := fun i x hx => by
      rw [hget] at hx
      show _ ↔ i ∈ w.queue ++ [id]
      by_cases hi : i = id
      · subst hi
        rw [if_pos rfl] at hx
        cases hx
        simp [h5]
      · rw [if_neg hi] at hx
        rw [h.queued i x hx]
        simp [hi]
    removed := fun i x hx hr => by
      rw [hget] at hx
      by_cases hi : i = id
      · subst hi
        rw [if_pos rfl] at hx
        cases hx
        rw [h4] at hr
        rw [h.removed i o ho hr] at hs
        simp at hs
      · rw [if_neg hi] at hx
        exact h.removed i x hx hr
    calls := fun k hk => by
      show ∃ x, _ = some x ∧ _
      by_cases hi : k.1 = id
      · exact ⟨o', by rw [hget, if_pos hi], h6, h7⟩
      · have hk' : k ∈ s.calls := by
          cases call with
          | false => rw [(hsend rfl).2.1] at hk; exact hk
          | true =>
            rw [(hcall rfl).2.1] at hk
            rcases List.mem_append.mp hk with hk | hk
            · exact hk
            · simp only [List.mem_singleton] at hk
              subst hk
              exact absurd rfl hi
        obtain ⟨x, hx, a, b⟩ := h.calls k hk'
        exact ⟨x, by rw [hget, if_neg hi]; exact hx, a, b⟩
    ids := by
      show (calls'.map (·.1)).Nodup
      cases call with
      | false => rw [(hsend rfl).2.1]; exact h.ids
      | true =>
        rw [(hcall rfl).2.1, List.map_append, List.nodup_append]
        refine ⟨h.ids, by simp, ?_⟩
        intro a ha b hb
        simp only [List.map_cons, List.map_nil, List.mem_singleton] at hb
        subst hb
        exact fun e => hnc rfl (e ▸ ha)
    cookies := by
      show (calls'.map (·.2.1)).Nodup
      cases call with
      | false => rw [(hsend rfl).2.1]; exact h.cookies
      | true =>
        rw [(hcall rfl).2.1, List.map_append, List.nodup_append]
        refine ⟨h.cookies, by simp, ?_⟩
        intro a ha b hb
        simp only [List.map_cons, List.map_nil, List.mem_singleton] at hb
        obtain ⟨k, hk, e⟩ := List.mem_map.mp ha
        have := (h.below k hk).2
        have := (hcall rfl).2.2.2.1
        intro e'
        omega
    below := fun k hk => by
      show 1 ≤ k.2.1 ∧ k.2.1 ≤ c
      cases call with
      | false =>
        rw [show calls' = s.calls from (hsend rfl).2.1] at hk
        rw [(hsend rfl).2.2]; exact h.below k hk
      | true =>
        obtain ⟨-, e1, -, e2, e3⟩ := hcall rfl
        rw [e1] at hk
        rcases List.mem_append.mp hk with hk | hk
        · have := h.below k hk; omega
        · simp only [List.mem_singleton] at hk
          subst hk
          show 1 ≤ o'.cookie ∧ o'.cookie ≤ c
          omega
    dropped := fun i hi => by
      have := h.dropped i hi
      obtain ⟨k, hk, e⟩ := List.mem_map.mp this
      exact List.mem_map.mpr ⟨k, hsub k hk, e⟩
    answers := fun a ha => by
      obtain ⟨hn, x, hx, hsx⟩ := h.answers a ha
      have hi : a.1 ≠ id := by
        intro e
        rw [e, ho] at hx
        cases hx
        rw [hs] at hsx; simp at hsx
      refine ⟨?_, x, by rw [hget, if_neg hi]; exact hx, hsx⟩
      show a.1 ∉ w.queue ++ [id]
      simp [hn, hi]
    once := h.once }

theorem nextCookie_eq {c : Nat} (h : c + 1 < W64) : nextCookie c = c + 1 := by
  unfold nextCookie
  rw [Nat.mod_eq_of_lt h, if_pos (by omega)]

theorem callAsync_keeps {w : Bus} {s : Spec.St} (h : Inv w s) (id : Nat) (hasCb sealOk : Bool)
    (hc : w.cookies + 1 < W64) :
    Keeps s (callAsync w id hasCb sealOk).2.1 (callAsync w id hasCb sealOk).2.2 ∧
      (callAsync w id hasCb sealOk).2.1.cookies ≤ w.cookies + 1 := by
  unfold callAsync
  cases ho : w.objs[id]? with
  | none => exact ⟨Keeps.nil h, Nat.le_succ _⟩
  | some o =>
    simp only
    split
    · exact ⟨Keeps.nil h, Nat.le_succ _⟩
    · split
      · exact ⟨Keeps.nil h, Nat.le_succ _⟩
      · rename_i h1 h2
        split
        · exact ⟨Keeps.nil (h.touch ho _ rfl rfl rfl rfl rfl (fun a => a) (fun _ _ => rfl)), Nat.le_succ _⟩
        · rw [nextCookie_eq hc]
          refine ⟨⟨?_, by simp [Spec.answered, Spec.St.next]⟩, Nat.le_refl _⟩
          refine h.enqueue ho (by
            cases hq : o.queued
            · rfl
            · exact absurd (Or.inl hq) h1) (by
            cases hq : o.sent
            · rfl
            · exact absurd (Or.inr hq) h1)
            { o with hasPeer := true, isSealed := true, hasCb := hasCb, cookie := w.cookies + 1, queued := true }
            (by
              cases hq : o.sent
              · rfl
              · exact absurd (Or.inr hq) h1) rfl rfl rfl rfl (w.cookies + 1) true _ (fun _ => ⟨by simp, rfl, ?_, rfl, rfl⟩)
            (fun hf => by simp at hf)
          cases hq : o.hasPeer
          · rfl
          · exact absurd (Or.inr (Or.inr hq)) h2

theorem send_keeps {w : Bus} {s : Spec.St} (h : Inv w s) (id : Nat) (sealOk : Bool) :
    Keeps s (send w id sealOk).2.1 (send w id sealOk).2.2 ∧ (send w id sealOk).2.1.cookies = w.cookies := by
  unfold send
  cases ho : w.objs[id]? with
  | none => exact ⟨Keeps.nil h, rfl⟩
  | some o =>
    simp only
    split
    · exact ⟨Keeps.nil h, rfl⟩
    · split
      · exact ⟨Keeps.nil h, rfl⟩
      · rename_i h1 h2
        split
        · exact ⟨Keeps.nil (h.touch ho _ rfl rfl rfl rfl rfl (fun a => a) (fun _ _ => rfl)), rfl⟩
        · have hs : o.sent = false := by
            cases hq : o.sent
            · rfl
            · exact absurd (Or.inr hq) h1
          refine ⟨⟨?_, by simp [Spec.answered, Spec.St.next]⟩, rfl⟩
          exact h.enqueue ho (by
            cases hq : o.queued
            · rfl
            · exact absurd (Or.inl hq) h1) hs
            { o with hasPeer := true, isSealed := true, hasCb := false, cookie := 0, queued := true }
            hs rfl rfl rfl rfl w.cookies false s.calls (fun hf => by simp at hf) (fun _ => ⟨rfl, rfl, rfl⟩)

/-! ## Cancelling -/

theorem findCookie_some {w : Bus} {c id : Nat} {o : Obj} (h : findCookie w c = some (id, o)) :
    id ∈ w.queue ∧ w.objs[id]? = some o ∧ o.cookie = c := by
  unfold findCookie at h
  obtain ⟨i, hi, h⟩ := List.exists_of_findSome?_eq_some h
  cases ho : w.objs[i]? with
  | none => rw [ho] at h; simp at h
  | some x =>
    rw [ho] at h
    simp only at h
    split at h
    · rename_i hc
      cases h
      exact ⟨hi, ho, hc⟩
    · simp at h

theorem findCookie_none {w : Bus} {c : Nat} (h : findCookie w c = none) (id : Nat) (hid : id ∈ w.queue) (o : Obj)
    (ho : w.objs[id]? = some o) : o.cookie ≠ c := by
  unfold findCookie at h
  rw [List.findSome?_eq_none_iff] at h
  have := h id hid
  rw [ho] at this
  simp only at this
  intro e
  rw [if_pos e] at this
  simp at this

theorem mem_owners {s : Spec.St} {c i : Nat} : i ∈ Spec.owners s c ↔ ∃ k ∈ s.calls, k.2.1 = c ∧ k.1 = i := by
  unfold Spec.owners
  simp only [List.mem_map, List.mem_filter, decide_eq_true_eq]
  constructor
  · rintro ⟨k, ⟨h1, h2⟩, h3⟩; exact ⟨k, h1, h2, h3⟩
  · rintro ⟨k, h1, h2, h3⟩; exact ⟨k, ⟨h1, h2⟩, h3⟩

theorem nodup_inj {α β : Type} {f : α → β} : ∀ {l : List α}, (l.map f).Nodup → ∀ {a b}, a ∈ l → b ∈ l → f a = f b → a = b
  | [], _, _, _, ha, _, _ => by simp at ha
  | x :: l, h, a, b, ha, hb, e => by
    rw [List.map_cons, List.nodup_cons] at h
    rcases List.mem_cons.mp ha with rfl | ha' <;> rcases List.mem_cons.mp hb with rfl | hb'
    · rfl
    · exact absurd (List.mem_map.mpr ⟨b, hb', e.symm⟩) h.1
    · exact absurd (List.mem_map.mpr ⟨a, ha', e⟩) h.1
    · exact nodup_inj h.2 ha' hb' e

/-- The only call with the cookie of a queued call is that call. -/
theorem Inv.owner {w : Bus} {s : Spec.St} (h : Inv w s) {id c : Nat} {cb : Bool} (hk : (id, c, cb) ∈ s.calls) {i : Nat} :
    i ∈ Spec.owners s c ↔ i = id := by
  rw [mem_owners]
  constructor
  · rintro ⟨k, h1, h2, h3⟩
    have := nodup_inj h.cookies h1 hk h2
    rw [this] at h3
    exact h3.symm
  · rintro rfl; exact ⟨_, hk, rfl, rfl⟩

theorem Inv.drop_more {w : Bus} {s : Spec.St} (h : Inv w s) (c : Nat)
    (hf : ∀ id ∈ s.flying, id ∉ Spec.owners s c) (hu : ∀ u ∈ s.unsent, u.2 = true → u.1 ∉ Spec.owners s c) :
    Inv w (s.next (.cancelled c)) := by
  have hunsent : s.unsent.filter (fun u => !(u.2 && (Spec.owners s c).contains u.1)) = s.unsent := by
    rw [List.filter_eq_self]
    intro u hu'
    cases hc : u.2 with
    | false => rfl
    | true =>
      have := hu u hu' hc
      simp [this]
  unfold Spec.St.next
  simp only [hunsent]
  exact {
    queue := h.queue, short := h.short, orderly := h.orderly, nodup := h.nodup
    flying := fun i hi => by
      obtain ⟨x, hx, a, b, d, e⟩ := h.flying i hi
      refine ⟨x, hx, a, b, d, ?_⟩
      rw [e]
      simp [hf i hi]
    unsent := fun u hu' => by
      obtain ⟨x, hx, a, b, d⟩ := h.unsent u hu'
      refine ⟨x, hx, a, fun hc => ⟨(b hc).1, (b hc).2.1, ?_⟩, d⟩
      simp [(b hc).2.2, hu u hu' hc]
    queued := h.queued, removed := h.removed, calls := h.calls, ids := h.ids, cookies := h.cookies
    below := h.below
    dropped := fun i hi => by
      rcases List.mem_append.mp hi with hi | hi
      · exact h.dropped i hi
      · obtain ⟨k, hk, -, e⟩ := mem_owners.mp hi
        exact List.mem_map.mpr ⟨k, hk, e⟩
    answers := h.answers, once := h.once }

theorem erase_nodup_mem {l : List Nat} (h : l.Nodup) (a x : Nat) : x ∈ l.erase a ↔ x ∈ l ∧ x ≠ a := by
  rw [h.mem_erase_iff]; exact And.comm

theorem filter_map_erase {l : List (Nat × Bool)} (h : (l.map (·.1)).Nodup) (id : Nat) (p : Nat × Bool → Bool)
    (hp : ∀ u ∈ l, p u = false ↔ u.1 = id) : (l.filter p).map (·.1) = (l.map (·.1)).erase id := by
  induction l with
  | nil => rfl
  | cons u l ih =>
    rw [List.map_cons, List.nodup_cons] at h
    by_cases hu : u.1 = id
    · rw [List.filter_cons_of_neg (by simp [(hp u (by simp)).mpr hu]), List.map_cons, hu, List.erase_cons_head]
      congr 1
      rw [List.filter_eq_self]
      intro v hv
      cases hpv : p v with
      | true => rfl
      | false =>
        have := (hp v (by simp [hv])).mp hpv
        exact absurd (List.mem_map.mpr ⟨v, hv, this.trans hu.symm⟩) h.1
    · have hpu : p u = true := by
        cases hpu : p u with
        | true => rfl
        | false => exact absurd ((hp u (by simp)).mp hpu) hu
      rw [List.filter_cons_of_pos hpu, List.map_cons, List.map_cons,
        List.erase_cons_tail (by simpa using hu), ih h.2 (fun v hv => hp v (by simp [hv]))]

theorem cancel_keeps {w : Bus} {s : Spec.St} (h : Inv w s) (c : Nat) :
    Keeps s (cancel w c).1 (cancel w c).2 ∧ (cancel w c).1.cookies = w.cookies := by
  unfold cancel
  split
  · exact ⟨Keeps.nil h, rfl⟩
  · rename_i hc0
    have hmemq : ∀ j, j ∈ s.flying ∨ j ∈ s.unsent.map (·.1) → j ∈ w.queue := by
      intro j hj; rw [h.queue]; simpa using hj
    have hsnd : (s.next (.cancelled c)).answers = s.answers := rfl
    cases hfind : findCookie w c with
    | none =>
      refine ⟨⟨?_, by simp [Spec.answered, Spec.St.next]⟩, rfl⟩
      refine h.drop_more c ?_ ?_
      · intro id hid ho
        obtain ⟨x, hx, -, -, d, -⟩ := h.flying id hid
        obtain ⟨k, hk, e1, e2⟩ := mem_owners.mp ho
        have := nodup_inj h.ids hk d e2
        have hne := findCookie_none hfind id (hmemq id (Or.inl hid)) x hx
        rw [this] at e1
        exact hne e1
      · intro u hu hc ho
        obtain ⟨x, hx, -, b, -⟩ := h.unsent u hu
        obtain ⟨k, hk, e1, e2⟩ := mem_owners.mp ho
        have := nodup_inj h.ids hk (b hc).2.1 e2
        have hne := findCookie_none hfind u.1 (hmemq u.1 (Or.inr (List.mem_map.mpr ⟨u, hu, rfl⟩))) x hx
        rw [this] at e1
        exact hne e1
    | some io =>
      obtain ⟨id, o⟩ := io
      obtain ⟨hq, ho, hoc⟩ := findCookie_some hfind
      simp only
      -- the message is a call
      have hwhere : id ∈ s.flying ∨ ∃ u ∈ s.unsent, u.1 = id := by
        rw [h.queue] at hq
        rcases List.mem_append.mp hq with hq | hq
        · exact Or.inl hq
        · obtain ⟨u, hu, e⟩ := List.mem_map.mp hq
          exact Or.inr ⟨u, hu, e⟩
      have hnd : (s.flying ++ s.unsent.map (·.1)).Nodup := h.queue ▸ h.nodup
      rw [List.nodup_append] at hnd
      rcases hwhere with hfl | ⟨u, hu, rfl⟩
      · obtain ⟨x, hx, a, b, d, e⟩ := h.flying id hfl
        rw [ho] at hx
        cases hx
        rw [if_pos a]
        refine ⟨⟨?_, by simp [Spec.answered, Spec.St.next]⟩, rfl⟩
        have hown : ∀ i, i ∈ Spec.owners s c ↔ i = id := fun i => by rw [← hoc]; exact h.owner d
        have hget : ∀ j, (setObj w id { o with removed := true }).objs[j]? =
          if j = id then some { o with removed := true } else w.objs[j]? := fun j => get_set ho _ j
        have hnu : id ∉ s.unsent.map (·.1) := fun hm => hnd.2.2 id hfl id hm rfl
        have hunsent : s.unsent.filter (fun u => !(u.2 && (Spec.owners s c).contains u.1)) = s.unsent := by
          rw [List.filter_eq_self]
          intro v hv
          have hv1 : v.1 ∉ Spec.owners s c := fun hm => hnu (List.mem_map.mpr ⟨v, hv, (hown _).mp hm⟩)
          simp [hv1]
        show Inv _ (s.next (.cancelled c))
        unfold Spec.St.next
        simp only [hunsent]
        exact {
          queue := h.queue, short := h.short, orderly := h.orderly, nodup := h.nodup
          flying := fun i hi => by
            by_cases hi' : i = id
            · subst hi'
              refine ⟨{ o with removed := true }, by rw [hget, if_pos rfl], a, b, d, ?_⟩
              simp [(hown i).mpr rfl]
            · obtain ⟨x, hx, a', b', d', e'⟩ := h.flying i hi
              refine ⟨x, by rw [hget, if_neg hi']; exact hx, a', b', d', ?_⟩
              rw [e']
              have : i ∉ Spec.owners s c := fun hm => hi' ((hown i).mp hm)
              simp [this]
          unsent := fun v hv => by
            obtain ⟨x, hx, a', b', d'⟩ := h.unsent v hv
            have hv' : v.1 ≠ id := fun e => hnu (List.mem_map.mpr ⟨v, hv, e⟩)
            have hv1 : v.1 ∉ Spec.owners s c := fun hm => hv' ((hown _).mp hm)
            refine ⟨x, by rw [hget, if_neg hv']; exact hx, a', fun hc => ⟨(b' hc).1, (b' hc).2.1, ?_⟩, d'⟩
            simp [(b' hc).2.2, hv1]
          queued := fun i x hx => by
            rw [hget] at hx
            by_cases hi : i = id
            · subst hi
              rw [if_pos rfl] at hx
              cases hx
              exact h.queued i o ho
            · rw [if_neg hi] at hx
              exact h.queued i x hx
          removed := fun i x hx hr => by
            rw [hget] at hx
            by_cases hi : i = id
            · subst hi
              rw [if_pos rfl] at hx
              cases hx
              exact a
            · rw [if_neg hi] at hx
              exact h.removed i x hx hr
          calls := fun k hk => by
            obtain ⟨x, hx, p, q⟩ := h.calls k hk
            by_cases hi : k.1 = id
            · rw [hi, ho] at hx
              cases hx
              exact ⟨{ o with removed := true }, by rw [hget, if_pos hi], p, q⟩
            · exact ⟨x, by rw [hget, if_neg hi]; exact hx, p, q⟩
          ids := h.ids, cookies := h.cookies, below := h.below
          dropped := fun i hi => by
            rcases List.mem_append.mp hi with hi | hi
            · exact h.dropped i hi
            · obtain ⟨k, hk, -, e⟩ := mem_owners.mp hi
              exact List.mem_map.mpr ⟨k, hk, e⟩
          answers := fun x hx => by
            obtain ⟨hn, y, hy, hs⟩ := h.answers x hx
            have hi : x.1 ≠ id := fun e => hn (e ▸ hq)
            exact ⟨hn, y, by rw [hget, if_neg hi]; exact hy, hs⟩
          once := h.once }
      · obtain ⟨x, hx, a, b, d⟩ := h.unsent u hu
        rw [ho] at hx
        cases hx
        rw [if_neg (by simp [a])]
        refine ⟨⟨?_, by simp [Spec.answered, Spec.St.next]⟩, rfl⟩
        have hcall : u.2 = true := by
          cases hu2 : u.2 with
          | true => rfl
          | false => exact absurd ((d hu2).symm.trans hoc).symm hc0
        have hown : ∀ i, i ∈ Spec.owners s c ↔ i = u.1 := fun i => by rw [← hoc]; exact h.owner (b hcall).2.1
        have hget : ∀ j, (unlink w u.1 o).objs[j]? =
          if j = u.1 then some { o with queued := false } else w.objs[j]? := fun j => get_set ho _ j
        have hnf : u.1 ∉ s.flying := fun hm => hnd.2.2 u.1 hm u.1 (List.mem_map.mpr ⟨u, hu, rfl⟩) rfl
        have hpred : ∀ v ∈ s.unsent, (!(v.2 && (Spec.owners s c).contains v.1)) = false ↔ v.1 = u.1 := by
          intro v hv
          constructor
          · intro hp
            simp only [Bool.not_eq_false', Bool.and_eq_true, List.contains_iff_mem] at hp
            exact (hown _).mp hp.2
          · intro hv1
            have : v = u := nodup_inj hnd.2.1 hv hu hv1
            subst this
            simp [hcall, (hown v.1).mpr rfl]
        have hqe : w.queue.erase u.1 = s.flying ++
            (s.unsent.filter (fun u => !(u.2 && (Spec.owners s c).contains u.1))).map (·.1) := by
          rw [h.queue, List.erase_append_right _ hnf, filter_map_erase hnd.2.1 u.1 _ hpred]
        show Inv _ (s.next (.cancelled c))
        unfold Spec.St.next
        simp only
        exact {
          queue := hqe, short := h.short, orderly := h.orderly
          nodup := h.nodup.erase _
          flying := fun i hi => by
            have hi' : i ≠ u.1 := fun e => hnf (e ▸ hi)
            obtain ⟨x, hx, a', b', d', e'⟩ := h.flying i hi
            refine ⟨x, by rw [hget, if_neg hi']; exact hx, a', b', d', ?_⟩
            rw [e']
            have : i ∉ Spec.owners s c := fun hm => hi' ((hown i).mp hm)
            simp [this]
          unsent := fun v hv => by
            obtain ⟨hv, hvp⟩ := List.mem_filter.mp hv
            obtain ⟨x, hx, a', b', d'⟩ := h.unsent v hv
            have hv' : v.1 ≠ u.1 := fun e => by rw [(hpred v hv).mpr e] at hvp; simp at hvp
            have hv1 : v.1 ∉ Spec.owners s c := fun hm => hv' ((hown _).mp hm)
            refine ⟨x, by rw [hget, if_neg hv']; exact hx, a', fun hc => ⟨(b' hc).1, (b' hc).2.1, ?_⟩, d'⟩
            simp [(b' hc).2.2, hv1]
          queued := fun i x hx => by
            rw [hget] at hx
            show _ ↔ i ∈ w.queue.erase u.1
            rw [erase_nodup_mem h.nodup]
            by_cases hi : i = u.1
            · rw [if_pos hi] at hx
              cases hx
              simp [hi]
            · rw [if_neg hi] at hx
              rw [h.queued i x hx]
              simp [hi]
          removed := fun i x hx hr => by
            rw [hget] at hx
            by_cases hi : i = u.1
            · rw [if_pos hi] at hx
              cases hx
              exact h.removed u.1 o ho hr
            · rw [if_neg hi] at hx
              exact h.removed i x hx hr
          calls := fun k hk => by
            obtain ⟨x, hx, p, q⟩ := h.calls k hk
            by_cases hi : k.1 = u.1
            · rw [hi, ho] at hx
              cases hx
              exact ⟨{ o with queued := false }, by rw [hget, if_pos hi], p, q⟩
            · exact ⟨x, by rw [hget, if_neg hi]; exact hx, p, q⟩
          ids := h.ids, cookies := h.cookies, below := h.below
          dropped := fun i hi => by
            rcases List.mem_append.mp hi with hi | hi
            · exact h.dropped i hi
            · obtain ⟨k, hk, -, e⟩ := mem_owners.mp hi
              exact List.mem_map.mpr ⟨k, hk, e⟩
          answers := fun x hx => by
            obtain ⟨hn, y, hy, hs⟩ := h.answers x hx
            have hi : x.1 ≠ u.1 := fun e => hn (e ▸ hq)
            refine ⟨fun hm => hn (List.mem_of_mem_erase hm), y, by rw [hget, if_neg hi]; exact hy, hs⟩
          once := h.once }

/-! ## Writing and reading -/

/-- Removing the head of the queue. -/
theorem Inv.dequeue {w : Bus} {s s' : Spec.St} (h : Inv w s) {id : Nat} {o : Obj} (ho : w.objs[id]? = some o) (o' : Obj)
    (hq : w.queue.head? = some id) (hs : o'.sent = true) (hqd : o'.queued = false)
    (hse : o'.isSealed = o.isSealed) (hpe : o'.hasPeer = o.hasPeer)
    (hqs : w.queue.tail = s'.flying ++ s'.unsent.map (·.1)) (hshort : s'.flying = []) (hord : s'.orderly = true)
    (hun : ∀ u ∈ s'.unsent, u ∈ s.unsent) (hcalls : s'.calls = s.calls) (hdr : s'.dropped = s.dropped)
    (hans : s'.answers = s.answers ∨ ∃ p, s'.answers = s.answers ++ [(id, p)]) :
    Inv { setObj w id o' with queue := w.queue.erase id } s' := by
  obtain ⟨rest, hqr⟩ : ∃ rest, w.queue = id :: rest := by
    cases hw : w.queue with
    | nil => rw [hw] at hq; simp at hq
    | cons a t => rw [hw] at hq; simp at hq; exact ⟨t, by rw [hq]⟩
  have hnd := h.nodup
  rw [hqr, List.nodup_cons] at hnd
  have her : w.queue.erase id = rest := by rw [hqr, List.erase_cons_head]
  have hget : ∀ j, ({ setObj w id o' with queue := w.queue.erase id } : Bus).objs[j]? =
      if j = id then some o' else w.objs[j]? := fun j => get_set ho o' j
  have hidq : id ∈ w.queue := by rw [hqr]; simp
  exact {
    queue := by
      show w.queue.erase id = _
      rw [her, ← hqs, hqr, List.tail_cons]
    short := by rw [hshort]; simp
    orderly := hord
    nodup := by show (w.queue.erase id).Nodup; rw [her]; exact hnd.2
    flying := fun i hi => by rw [hshort] at hi; simp at hi
    unsent := fun u hu => by
      obtain ⟨x, hx, a, b, d⟩ := h.unsent u (hun u hu)
      have hne : u.1 ≠ id := by
        intro e
        have hm : u.1 ∈ w.queue.tail := by rw [hqs]; exact List.mem_append_right _ (List.mem_map.mpr ⟨u, hu, rfl⟩)
        rw [hqr, List.tail_cons] at hm
        exact hnd.1 (e ▸ hm)
      refine ⟨x, by rw [hget, if_neg hne]; exact hx, a, fun hc => ?_, d⟩
      rw [hcalls, hdr]; exact b hc
    queued := fun i x hx => by
      rw [hget] at hx
      show _ ↔ i ∈ w.queue.erase id
      rw [erase_nodup_mem h.nodup]
      by_cases hi : i = id
      · rw [if_pos hi] at hx
        cases hx
        simp [hi, hqd]
      · rw [if_neg hi] at hx
        rw [h.queued i x hx]
        simp [hi]
    removed := fun i x hx hr => by
      rw [hget] at hx
      by_cases hi : i = id
      · rw [if_pos hi] at hx
        cases hx
        exact hs
      · rw [if_neg hi] at hx
        exact h.removed i x hx hr
    calls := fun k hk => by
      rw [hcalls] at hk
      obtain ⟨x, hx, p, q⟩ := h.calls k hk
      by_cases hi : k.1 = id
      · rw [hi, ho] at hx
        cases hx
        exact ⟨o', by rw [hget, if_pos hi], by rw [hse, p], by rw [hpe, q]⟩
      · exact ⟨x, by rw [hget, if_neg hi]; exact hx, p, q⟩
    ids := by rw [hcalls]; exact h.ids
    cookies := by rw [hcalls]; exact h.cookies
    below := fun k hk => by rw [hcalls] at hk; exact h.below k hk
    dropped := fun i hi => by rw [hcalls]; rw [hdr] at hi; exact h.dropped i hi
    answers := fun x hx => by
      show x.1 ∉ w.queue.erase id ∧ _
      have hold : x ∈ s.answers → x.1 ∉ w.queue.erase id ∧ ∃ y,
          ({ setObj w id o' with queue := w.queue.erase id } : Bus).objs[x.1]? = some y ∧ y.sent = true := by
        intro hx
        obtain ⟨hn, y, hy, hsy⟩ := h.answers x hx
        have hi : x.1 ≠ id := fun e => hn (e ▸ hidq)
        exact ⟨fun hm => hn (List.mem_of_mem_erase hm), y, by rw [hget, if_neg hi]; exact hy, hsy⟩
      rcases hans with e | ⟨p, e⟩
      · rw [e] at hx; exact hold hx
      · rw [e] at hx
        rcases List.mem_append.mp hx with hx | hx
        · exact hold hx
        · simp only [List.mem_singleton] at hx
          subst hx
          exact ⟨by rw [erase_nodup_mem h.nodup]; simp, o', by rw [hget, if_pos rfl], hs⟩
    once := by
      rcases hans with e | ⟨p, e⟩
      · rw [e]; exact h.once
      · rw [e, List.map_append, List.nodup_append]
        refine ⟨h.once, by simp, ?_⟩
        intro a ha b hb
        simp only [List.map_cons, List.map_nil, List.mem_singleton] at hb
        subst hb
        obtain ⟨x, hx, e⟩ := List.mem_map.mp ha
        have := (h.answers x hx).1
        rw [e] at this
        exact fun e' => this (e' ▸ hidq) }

theorem write_keeps {w : Bus} {s : Spec.St} (h : Inv w s) (r : SendRes) :
    Keeps s (write w r).2.1 (write w r).2.2 ∧ (write w r).2.1.cookies = w.cookies := by
  unfold write
  cases hq : w.queue with
  | nil => exact ⟨Keeps.nil h, rfl⟩
  | cons id rest =>
    simp only
    cases ho : w.objs[id]? with
    | none => exact ⟨Keeps.nil h, rfl⟩
    | some o =>
      simp only
      split
      · exact ⟨Keeps.nil h, rfl⟩
      · rename_i hs
        split
        · exact ⟨Keeps.nil h, rfl⟩
        · have hfl : s.flying = [] := by
            cases hf : s.flying with
            | nil => rfl
            | cons f t =>
              exfalso
              have hqq := h.queue
              rw [hf, hq, List.cons_append] at hqq
              have hid : id = f := (List.cons.inj hqq).1
              obtain ⟨x, hx, a, -⟩ := h.flying f (by rw [hf]; simp)
              rw [← hid, ho] at hx
              cases hx
              exact hs a
          obtain ⟨c, us, hus⟩ : ∃ c us, s.unsent = (id, c) :: us := by
            have hqq := h.queue
            rw [hfl, hq, List.nil_append] at hqq
            cases hun : s.unsent with
            | nil => rw [hun] at hqq; simp at hqq
            | cons u us =>
              rw [hun, List.map_cons] at hqq
              obtain ⟨e1, -⟩ := List.cons.inj hqq
              exact ⟨u.2, us, by rw [e1]⟩
          have htail : w.queue.tail = us.map (·.1) := by
            have hqq := h.queue
            rw [hfl, List.nil_append, hus, List.map_cons] at hqq
            rw [hqq, List.tail_cons]
          obtain ⟨x, hx, hsent, hcall, hsend⟩ := h.unsent (id, c) (by rw [hus]; simp)
          rw [ho] at hx
          cases hx
          split
          · rename_i hck
            have hc : c = false := by
              cases c with
              | false => rfl
              | true => exact absurd hck (hcall rfl).1
            subst hc
            refine ⟨⟨?_, by simp [Spec.answered, Spec.St.next, hus]⟩, rfl⟩
            have hset : (unlink (setObj w id { o with sent := true }) id { o with sent := true }) =
                { setObj w id { o with sent := true, queued := false } with queue := w.queue.erase id } := by
              unfold unlink setObj
              simp
            rw [hset]
            have hnext : [Ev.wrote id].foldl Spec.St.next s = { s with orderly := true, unsent := us } := by
              simp [Spec.St.next, hus, hfl, h.orderly]
            rw [hnext]
            exact h.dequeue ho _ (by rw [hq]; rfl) rfl rfl rfl rfl (by rw [htail]; simp [hfl]) hfl rfl
              (fun u hu => by rw [hus]; simp [show u ∈ us from hu]) rfl rfl (Or.inl rfl)
          · rename_i hck
            have hc : c = true := by
              cases c with
              | false => exact absurd (hsend rfl) hck
              | true => rfl
            subst hc
            refine ⟨⟨?_, by simp [Spec.answered, Spec.St.next, hus]⟩, rfl⟩
            have hnext : [Ev.wrote id].foldl Spec.St.next s =
                { s with orderly := true, unsent := us, flying := [id] } := by
              simp [Spec.St.next, hus, hfl, h.orderly]
            rw [hnext]
            have hget : ∀ j, (setObj w id { o with sent := true }).objs[j]? =
              if j = id then some { o with sent := true } else w.objs[j]? := fun j => get_set ho _ j
            have hnd := h.nodup
            rw [hq, List.nodup_cons] at hnd
            have hne : ∀ u ∈ us, u.1 ≠ id := by
              intro u hu e
              have hm : u.1 ∈ w.queue.tail := by rw [htail]; exact List.mem_map.mpr ⟨u, hu, rfl⟩
              rw [hq, List.tail_cons] at hm
              exact hnd.1 (e ▸ hm)
            exact {
              queue := by
                show w.queue = [id] ++ us.map (·.1)
                rw [← htail, hq]; rfl
              short := by simp
              orderly := rfl
              nodup := h.nodup
              flying := fun i hi => by
                simp only [List.mem_singleton] at hi
                subst hi
                refine ⟨{ o with sent := true }, by rw [hget, if_pos rfl], rfl, (hcall rfl).1, (hcall rfl).2.1, ?_⟩
                constructor
                · intro hr
                  have := h.removed i o ho hr
                  rw [hsent] at this; simp at this
                · intro hd; exact absurd hd (hcall rfl).2.2
              unsent := fun u hu => by
                obtain ⟨x, hx, a, b, d⟩ := h.unsent u (by rw [hus]; simp [hu])
                exact ⟨x, by rw [hget, if_neg (hne u hu)]; exact hx, a, b, d⟩
              queued := fun i x hx => by
                rw [hget] at hx
                by_cases hi : i = id
                · subst hi
                  rw [if_pos rfl] at hx
                  cases hx
                  exact h.queued i o ho
                · rw [if_neg hi] at hx
                  exact h.queued i x hx
              removed := fun i x hx hr => by
                rw [hget] at hx
                by_cases hi : i = id
                · rw [if_pos hi] at hx
                  cases hx
                  rfl
                · rw [if_neg hi] at hx
                  exact h.removed i x hx hr
              calls := fun k hk => by
                obtain ⟨x, hx, p, q⟩ := h.calls k hk
                by_cases hi : k.1 = id
                · rw [hi, ho] at hx
                  cases hx
                  exact ⟨{ o with sent := true }, by rw [hget, if_pos hi], p, q⟩
                · exact ⟨x, by rw [hget, if_neg hi]; exact hx, p, q⟩
              ids := h.ids, cookies := h.cookies, below := h.below, dropped := h.dropped
              answers := fun x hx => by
                obtain ⟨hn, y, hy, hsy⟩ := h.answers x hx
                have hi : x.1 ≠ id := fun e => hn (by rw [e, hq]; simp)
                exact ⟨hn, y, by rw [hget, if_neg hi]; exact hy, hsy⟩
              once := h.once }

theorem read_keeps {w : Bus} {s : Spec.St} (h : Inv w s) (r : ReadRes) :
    Keeps s (read w r).2.1 (read w r).2.2 ∧ (read w r).2.1.cookies = w.cookies := by
  unfold read
  cases r with
  | again => exact ⟨Keeps.nil h, rfl⟩
  | err => exact ⟨Keeps.nil h, rfl⟩
  | msg reply p =>
    cases reply with
    | false => exact ⟨⟨h, by simp [Spec.answered, Spec.St.next]⟩, rfl⟩
    | true =>
      simp only
      cases hfl : s.flying with
      | nil =>
        have hgot : s.next (.got p) = s := by unfold Spec.St.next; simp [hfl]
        have hk : Keeps s w [.got p] := by
          refine ⟨?_, ?_⟩
          · show Inv w (s.next (.got p)); rw [hgot]; exact h
          · show (s.next (.got p)).answers = _
            rw [hgot]; simp [Spec.answered]
        cases hq : w.queue with
        | nil => exact ⟨hk, rfl⟩
        | cons id rest =>
          simp only
          cases ho : w.objs[id]? with
          | none => exact ⟨hk, rfl⟩
          | some o =>
            have hns : o.sent = false := by
              have hqq := h.queue
              rw [hfl, hq, List.nil_append] at hqq
              cases hun : s.unsent with
              | nil => rw [hun] at hqq; simp at hqq
              | cons u us =>
                rw [hun, List.map_cons] at hqq
                obtain ⟨x, hx, a, -⟩ := h.unsent u (by rw [hun]; simp)
                rw [← (List.cons.inj hqq).1, ho] at hx
                cases hx
                exact a
            simp only
            rw [if_pos hns]
            exact ⟨hk, rfl⟩
      | cons f t =>
        have ht : t = [] := by
          have := h.short
          rw [hfl] at this
          cases t with
          | nil => rfl
          | cons a b => simp at this
        subst ht
        have hqq := h.queue
        rw [hfl] at hqq
        obtain ⟨o, ho, hs, hck, hcl, hrm⟩ := h.flying f (by rw [hfl]; simp)
        have hq : w.queue = f :: s.unsent.map (·.1) := hqq
        have hwant : Spec.wanted s f = (!o.removed && o.hasCb) := by
          unfold Spec.wanted
          have h1 : s.dropped.contains f = o.removed := by
            rw [Bool.eq_iff_iff, List.contains_iff_mem]; exact hrm.symm
          have h2 : s.calls.any (fun k => decide (k.1 = f ∧ k.2.2 = true)) = o.hasCb := by
            cases hcb : o.hasCb with
            | true =>
              rw [List.any_eq_true]
              exact ⟨_, hcl, by simp [hcb]⟩
            | false =>
              rw [List.any_eq_false]
              intro k hk
              simp only [decide_eq_true_eq]
              rintro ⟨e1, e2⟩
              have := nodup_inj h.ids hk hcl e1
              rw [this] at e2
              simp only at e2
              rw [hcb] at e2
              simp at e2
          rw [h1, h2]
        have hnext : s.next (.got p) =
            { s with flying := [], answers := if !o.removed && o.hasCb then s.answers ++ [(f, p)] else s.answers } := by
          unfold Spec.St.next
          simp only [hfl, hwant]
        have hdq : ∀ s' : Spec.St, s' = s.next (.got p) → Inv (unlink w f o) s' := by
          intro s' hs'
          rw [hs', hnext]
          refine h.dequeue ho _ (by rw [hq]; rfl) hs rfl rfl rfl ?_ rfl h.orderly (fun u hu => hu) rfl rfl ?_
          · rw [hq]; rfl
          · show (if _ then _ else _) = _ ∨ _
            split
            · exact Or.inr ⟨p, rfl⟩
            · exact Or.inl rfl
        rw [hq]
        simp only [ho]
        rw [if_neg (by simp [hs])]
        split
        · rename_i hr
          refine ⟨⟨hdq _ rfl, ?_⟩, rfl⟩
          show (s.next (.got p)).answers = _
          rw [hnext]
          simp [hr, Spec.answered]
        · rename_i hr
          split
          · rename_i hcb
            refine ⟨⟨hdq _ rfl, ?_⟩, rfl⟩
            show (s.next (.got p)).answers = _
            rw [hnext]
            simp [hr, hcb, Spec.answered]
          · rename_i hcb
            refine ⟨⟨hdq _ rfl, ?_⟩, rfl⟩
            show (s.next (.got p)).answers = _
            rw [hnext]
            simp [hcb, Spec.answered]

/-! ## Runs -/

theorem Inv.flags {w w' : Bus} {s : Spec.St} (h : Inv w s) (h1 : w'.queue = w.queue) (h2 : w'.objs = w.objs)
    (h3 : w'.cookies = w.cookies) : Inv w' s := by
  exact {
    queue := by rw [h1]; exact h.queue
    short := h.short, orderly := h.orderly
    nodup := by rw [h1]; exact h.nodup
    flying := by rw [h2]; exact h.flying
    unsent := by rw [h2]; exact h.unsent
    queued := by rw [h1, h2]; exact h.queued
    removed := by rw [h2]; exact h.removed
    calls := by rw [h2]; exact h.calls
    ids := h.ids, cookies := h.cookies
    below := by rw [h3]; exact h.below
    dropped := h.dropped
    answers := by rw [h1, h2]; exact h.answers
    once := h.once }

theorem hangup_keeps {w : Bus} {s : Spec.St} (h : Inv w s) :
    Keeps s (hangup w).1 (hangup w).2 ∧ (hangup w).1.cookies = w.cookies := by
  unfold hangup
  split
  · exact ⟨Keeps.nil h, rfl⟩
  · exact ⟨⟨h.flags rfl rfl rfl, by simp [Spec.answered, Spec.St.next]⟩, rfl⟩

theorem ioEnd_keeps {w : Bus} {s : Spec.St} (h : Inv w s) (hup : Bool) (wr : SendRes) :
    Keeps s (ioEnd w hup wr).1 (ioEnd w hup wr).2 ∧ (ioEnd w hup wr).1.cookies = w.cookies := by
  unfold ioEnd
  split
  · exact hangup_keeps h
  · exact ⟨Keeps.nil h, rfl⟩

theorem ioRead_keeps {w : Bus} {s : Spec.St} (h : Inv w s) (inp hup : Bool) (wr : SendRes) (r : ReadRes) :
    Keeps s (ioRead w inp hup wr r).1 (ioRead w inp hup wr r).2 ∧
      (ioRead w inp hup wr r).1.cookies = w.cookies := by
  unfold ioRead
  split
  · obtain ⟨hk, hc⟩ := read_keeps h r
    cases r with
    | msg reply p => exact ⟨hk, hc⟩
    | err =>
      obtain ⟨hk', hc'⟩ := hangup_keeps hk.1
      exact ⟨hk.trans hk', hc'.trans hc⟩
    | again =>
      obtain ⟨hk', hc'⟩ := ioEnd_keeps hk.1 hup wr
      exact ⟨hk.trans hk', hc'.trans hc⟩
  · exact ioEnd_keeps h hup wr

theorem io_keeps {w : Bus} {s : Spec.St} (h : Inv w s) (inp out hup : Bool) (sr : SendRes) (r : ReadRes) :
    Keeps s (io w inp out hup sr r).1 (io w inp out hup sr r).2 ∧
      (io w inp out hup sr r).1.cookies = w.cookies := by
  unfold io
  split
  · exact ⟨Keeps.nil h, rfl⟩
  · cases out with
    | false =>
      simp only [Bool.false_eq_true, if_false, List.nil_append]
      exact ioRead_keeps h inp hup .ok r
    | true =>
      simp only [if_true]
      obtain ⟨hk, hc⟩ := write_keeps h sr
      obtain ⟨hk', hc'⟩ := ioRead_keeps hk.1 inp hup (write w sr).1 r
      exact ⟨hk.trans hk', hc'.trans hc⟩

theorem Inv.grow {w : Bus} {s : Spec.St} (h : Inv w s) (o : Obj) (hq : o.queued = false) (hr : o.removed = false) :
    Inv { w with objs := w.objs ++ [o] } s := by
  have key : ∀ (j : Nat) (x : Obj), w.objs[j]? = some x → (w.objs ++ [o])[j]? = some x := by
    intro j x hx
    have hlt : j < w.objs.length := by
      rcases Nat.lt_or_ge j w.objs.length with h' | h'
      · exact h'
      · rw [List.getElem?_eq_none h'] at hx; simp at hx
    rw [List.getElem?_append_left hlt]; exact hx
  have back : ∀ (j : Nat) (x : Obj), (w.objs ++ [o])[j]? = some x →
      w.objs[j]? = some x ∨ (x = o ∧ j = w.objs.length) := by
    intro j x hx
    rcases Nat.lt_or_ge j w.objs.length with h' | h'
    · rw [List.getElem?_append_left h'] at hx; exact Or.inl hx
    · rw [List.getElem?_append_right h'] at hx
      have hj : j - w.objs.length = 0 := by
        rcases Nat.eq_zero_or_pos (j - w.objs.length) with h0 | h0
        · exact h0
        · rw [List.getElem?_eq_none (by simp; omega)] at hx; simp at hx
      rw [hj] at hx
      simp only [List.getElem?_cons_zero, Option.some.injEq] at hx
      exact Or.inr ⟨hx.symm, by omega⟩
  have hnew : w.objs.length ∉ w.queue := by
    intro hm
    rw [h.queue] at hm
    rcases List.mem_append.mp hm with hm | hm
    · obtain ⟨x, hx, -⟩ := h.flying _ hm
      rw [List.getElem?_eq_none (Nat.le_refl _)] at hx; simp at hx
    · obtain ⟨u, hu, e⟩ := List.mem_map.mp hm
      obtain ⟨x, hx, -⟩ := h.unsent u hu
      rw [e, List.getElem?_eq_none (Nat.le_refl _)] at hx; simp at hx
  exact {
    queue := h.queue, short := h.short, orderly := h.orderly, nodup := h.nodup
    flying := fun i hi => by obtain ⟨x, hx, r⟩ := h.flying i hi; exact ⟨x, key i x hx, r⟩
    unsent := fun u hu => by obtain ⟨x, hx, r⟩ := h.unsent u hu; exact ⟨x, key _ x hx, r⟩
    queued := fun i x hx => by
      rcases back i x hx with hx | ⟨rfl, rfl⟩
      · exact h.queued i x hx
      · constructor
        · intro hh; rw [hq] at hh; simp at hh
        · intro hm; exact absurd hm hnew
    removed := fun i x hx hrm => by
      rcases back i x hx with hx | ⟨rfl, rfl⟩
      · exact h.removed i x hx hrm
      · rw [hr] at hrm; simp at hrm
    calls := fun k hk => by obtain ⟨x, hx, r⟩ := h.calls k hk; exact ⟨x, key _ x hx, r⟩
    ids := h.ids, cookies := h.cookies, below := h.below, dropped := h.dropped
    answers := fun a ha => by obtain ⟨hn, x, hx, r⟩ := h.answers a ha; exact ⟨hn, x, key _ x hx, r⟩
    once := h.once }

theorem step_keeps {w : Bus} {s : Spec.St} (h : Inv w s) (o : Op) (n : Nat)
    (hc : w.cookies + Spec.callCount [o] + n < W64) :
    Keeps s (step w o).1 (step w o).2 ∧ (step w o).1.cookies + n < W64 := by
  have fin : ∀ {w' : Bus} {evs : List Ev}, Keeps s w' evs ∧ w'.cookies = w.cookies → Keeps s w' evs ∧ w'.cookies + n < W64 :=
    fun hk => ⟨hk.1, by rw [hk.2]; omega⟩
  cases o with
  | newMsg request => exact fin ⟨Keeps.nil (h.grow _ rfl rfl), rfl⟩
  | setPeer id peer =>
    refine fin ?_
    show Keeps s (setPeer w id peer) [] ∧ (setPeer w id peer).cookies = w.cookies
    unfold setPeer
    split
    · exact ⟨Keeps.nil h, rfl⟩
    · rename_i o ho
      split
      · exact ⟨Keeps.nil h, rfl⟩
      · rename_i hse
        exact ⟨Keeps.nil (h.touch ho _ rfl rfl rfl rfl rfl (fun a => a) (fun a _ => absurd a hse)), rfl⟩
  | sealMsg id =>
    refine fin ?_
    show Keeps s (sealUser w id) [] ∧ (sealUser w id).cookies = w.cookies
    unfold sealUser
    split
    · exact ⟨Keeps.nil h, rfl⟩
    · rename_i o ho
      exact ⟨Keeps.nil (h.touch ho _ rfl rfl rfl rfl rfl (fun _ => rfl) (fun _ a => a)), rfl⟩
  | call id hasCb sealOk =>
    have h1 : Spec.callCount [Op.call id hasCb sealOk] = 1 := rfl
    rw [h1] at hc
    have := callAsync_keeps h id hasCb sealOk (by omega)
    refine ⟨this.1, ?_⟩
    have h2 := this.2
    show (callAsync w id hasCb sealOk).2.1.cookies + n < W64
    omega
  | cancel c => exact fin (cancel_keeps h c)
  | send id sealOk => exact fin (send_keeps h id sealOk)
  | io inp out hup sr r => exact fin (io_keeps h inp out hup sr r)
  | timer =>
    refine fin ?_
    show Keeps s (timer w).1 (timer w).2 ∧ (timer w).1.cookies = w.cookies
    unfold timer
    split
    · exact ⟨Keeps.nil h, rfl⟩
    · split
      · exact ⟨Keeps.nil h, rfl⟩
      · exact hangup_keeps h
  | attach =>
    refine fin ?_
    show Keeps s (attach w).2 [] ∧ (attach w).2.cookies = w.cookies
    unfold attach
    split
    · exact ⟨Keeps.nil h, rfl⟩
    · split
      · exact ⟨Keeps.nil h, rfl⟩
      · exact ⟨Keeps.nil (h.flags rfl rfl rfl), rfl⟩
  | detach => exact fin ⟨Keeps.nil (h.flags rfl rfl rfl), rfl⟩

theorem step_cookies (w : Bus) (o : Op) (h : w.cookies + Spec.callCount [o] < W64) :
    (step w o).1.cookies ≤ w.cookies + Spec.callCount [o] := by
  have hrd : ∀ (w : Bus) (r : ReadRes), (read w r).2.1.cookies = w.cookies := by
    intro w r
    unfold read
    cases r with
    | again => rfl
    | err => rfl
    | msg b p =>
      cases b with
      | false => rfl
      | true =>
        simp only
        split
        · rfl
        · split
          · rfl
          · split
            · rfl
            · split
              · rfl
              · split <;> rfl
  have hwr : ∀ (w : Bus) (r : SendRes), (write w r).2.1.cookies = w.cookies := by
    intro w r
    unfold write
    split
    · rfl
    · split
      · rfl
      · split
        · rfl
        · split
          · rfl
          · dsimp only
            split <;> rfl
  have hhu : ∀ w : Bus, (hangup w).1.cookies = w.cookies := by
    intro w; unfold hangup; split <;> rfl
  have hen : ∀ (w : Bus) (a : Bool) (b : SendRes), (ioEnd w a b).1.cookies = w.cookies := by
    intro w a b; unfold ioEnd; split
    · exact hhu w
    · rfl
  cases o with
  | newMsg r => exact Nat.le_add_right _ _
  | setPeer id p =>
    refine Nat.le_trans (Nat.le_of_eq ?_) (Nat.le_add_right _ _)
    show (setPeer w id p).cookies = _
    unfold setPeer
    split
    · rfl
    · split <;> rfl
  | sealMsg id =>
    refine Nat.le_trans (Nat.le_of_eq ?_) (Nat.le_add_right _ _)
    show (sealUser w id).cookies = _
    unfold sealUser
    split <;> rfl
  | call id cb so =>
    have h1 : Spec.callCount [Op.call id cb so] = 1 := rfl
    rw [h1] at h ⊢
    show (callAsync w id cb so).2.1.cookies ≤ _
    unfold callAsync
    split
    · exact Nat.le_succ _
    · split
      · exact Nat.le_succ _
      · split
        · exact Nat.le_succ _
        · dsimp only
          split
          · exact Nat.le_succ _
          · dsimp only
            rw [nextCookie_eq h]
            exact Nat.le_refl _
  | cancel c =>
    refine Nat.le_trans (Nat.le_of_eq ?_) (Nat.le_add_right _ _)
    show (cancel w c).1.cookies = _
    unfold cancel
    split
    · rfl
    · split
      · rfl
      · split <;> rfl
  | send id so =>
    refine Nat.le_trans (Nat.le_of_eq ?_) (Nat.le_add_right _ _)
    show (send w id so).2.1.cookies = _
    unfold send
    split
    · rfl
    · split
      · rfl
      · split
        · rfl
        · dsimp only
          split <;> rfl
  | io i u hu s r =>
    refine Nat.le_trans (Nat.le_of_eq ?_) (Nat.le_add_right _ _)
    show (io w i u hu s r).1.cookies = _
    have hir : ∀ (w : Bus) (a b : Bool) (c : SendRes) (d : ReadRes), (ioRead w a b c d).1.cookies = w.cookies := by
      intro w a b c d
      unfold ioRead
      split
      · cases d with
        | err => exact (hhu _).trans (hrd w _)
        | msg x y => exact hrd w _
        | again => exact (hen _ _ _).trans (hrd w _)
      · exact hen _ _ _
    unfold io
    split
    · rfl
    · dsimp only
      rw [hir]
      split
      · exact hwr w s
      · rfl
  | timer =>
    refine Nat.le_trans (Nat.le_of_eq ?_) (Nat.le_add_right _ _)
    show (timer w).1.cookies = _
    unfold timer
    split
    · rfl
    · split
      · rfl
      · exact hhu w
  | attach =>
    refine Nat.le_trans (Nat.le_of_eq ?_) (Nat.le_add_right _ _)
    show (attach w).2.cookies = _
    unfold attach
    split
    · rfl
    · split <;> rfl
  | detach => exact Nat.le_add_right _ _

theorem callCount_cons (o : Op) (t : List Op) : Spec.callCount (o :: t) = Spec.callCount [o] + Spec.callCount t := by
  unfold Spec.callCount
  rw [show o :: t = [o] ++ t from rfl, List.countP_append]

theorem run_keeps (ops : List Op) : ∀ {w : Bus} {s : Spec.St}, Inv w s → w.cookies + Spec.callCount ops < W64 →
    Keeps s (run w ops).1 (run w ops).2 := by
  induction ops with
  | nil => intro w s h _; exact Keeps.nil h
  | cons o t ih =>
    intro w s h hc
    rw [callCount_cons] at hc
    obtain ⟨hk, hc'⟩ := step_keeps h o (Spec.callCount t) (by omega)
    exact hk.trans (ih hk.1 hc')

theorem Inv.init (server : Bool) : Inv (start server) {} := by
  constructor <;> simp [start]

theorem run_append (a b : List Op) : ∀ w, run w (a ++ b) =
    ((run (run w a).1 b).1, (run w a).2 ++ (run (run w a).1 b).2) := by
  induction a with
  | nil => intro w; simp [run]
  | cons o t ih => intro w; simp only [List.cons_append, run, ih, List.append_assoc]

theorem callCount_append (a b : List Op) : Spec.callCount (a ++ b) = Spec.callCount a + Spec.callCount b := by
  unfold Spec.callCount; rw [List.countP_append]

end Verif.WpasBus
