import Verif.Proof.RtspBusInv
/-! How often a call completes: helper lemmas. -/
namespace Verif.RtspBus
open Verif.C Verif.Rtsp Verif.RtspBus.Spec

/-- How often the callback of a message may still run. -/
def left : Option Item → Nat
  | none => 2
  | some it =>
    if it.msg.isUsed = false then 2
    else if it.isWaiting = false then 0
    else if it.isOutgoing = true ∧ it.isSending = false then 2 else 1

theorem left_le (x : Option Item) : left x ≤ 2 := by
  unfold left
  split
  · omega
  · repeat' split
    all_goals omega

theorem completions_nil (id : Nat) : completions id [] = 0 := rfl

theorem completions_append (id : Nat) (a b : List Event) : completions id (a ++ b) = completions id a + completions id b :=
  List.countP_append

theorem completions_complete (id j : Nat) (it : Item) (r : Option Nat) : completions id (complete j it r) ≤ if id = j then 1 else 0 := by
  unfold complete
  split
  · unfold completions
    rw [List.countP_singleton]
    unfold isDone
    by_cases e : j = id
    · simp [e]
    · simp [e]
  · exact Nat.zero_le _

theorem neutral_completions {s : St} {evs : List Event} (h : Neutral s evs) (id : Nat) : completions id evs = 0 := by
  cases h <;> rfl

theorem why_completions {s : St} {j : Nat} {it it' : Item} {evs : List Event} (h : Why s j it it' evs) (id : Nat) :
    completions id evs ≤ if id = j then 1 else 0 := by
  cases h with
  | cancel _ => exact Nat.zero_le _
  | reply _ _ _ =>
    have := completions_complete id j it (some it.msg.cookie)
    show List.countP (isDone id) (_ :: _) ≤ _
    rw [List.countP_cons_of_neg (by simp [isDone])]
    exact this
  | timeout _ => exact completions_complete id j it none

theorem why_same {s : St} {j : Nat} {it it' : Item} {evs : List Event} (h : Why s j it it' evs) :
    it'.msg = it.msg ∧ it'.isWaiting = it.isWaiting ∧ it'.isOutgoing = it.isOutgoing ∧ it'.isSending = it.isSending ∧ it'.cb = it.cb ∧ it'.sent = it.sent := by
  cases h <;> exact ⟨rfl, rfl, rfl, rfl, rfl, rfl⟩

/-- The heap of a state made by `mod`. -/
theorem mod_at (s : St) (id : Nat) (f : Item → Item) (it : Item) (h : s.heap id = some it) (j : Nat) :
    (s.mod id f).heap j = if j = id then some (f it) else s.heap j := by
  rw [heap_mod s id f it h]

/-- Replacing one message by one with as much left. -/
theorem left_put (s : St) (id j : Nat) (it x : Item) (h : s.heap id = some it) (hx : left (some x) ≤ left (some it)) :
    left (if j = id then some x else s.heap j) ≤ left (s.heap j) := by
  split
  · rename_i e; subst e; rw [h]; exact hx
  · exact Nat.le_refl _

theorem left_idle (it : Item) (h : it.msg.isUsed = false) : left (some it) = 2 := by
  unfold left
  simp only
  rw [if_pos h]

theorem Tr.left {mv : Moves} {s s' : St} {evs : List Event} (h : Tr mv s s' evs) (hi : Inv s) (j : Nat) :
    left (s'.heap j) + completions j evs ≤ left (s.heap j) := by
  cases h with
  | idle c' _ h hc => rw [neutral_completions h]; exact Nat.le_refl _
  | create m =>
    show RtspBus.left (if j = s.next then _ else s.heap j) + 0 ≤ _
    split
    · rename_i e
      rw [hi.fresh j (by omega)]
      have e2 : RtspBus.left none = 2 := rfl
      rw [e2]
      have := left_le (some (⟨m, false, 0, false, false, false, false⟩ : Item))
      omega
    · exact Nat.le_refl _
  | setCookie id it c h =>
    show RtspBus.left ((s.mod id _).heap j) + 0 ≤ _
    rw [mod_at s id _ it h]
    apply left_put s id j it _ h
    by_cases hs : it.msg.isSealed = true
    · simp only [setCookie_sealed _ c hs]; exact Nat.le_refl _
    · obtain ⟨a, _⟩ := (hi.item id it h).unsealed (by simpa using hs)
      unfold RtspBus.left Rtsp.setCookie
      simp only [hs, a]
      exact Nat.le_refl _
  | sealed id it r e h hr =>
    show RtspBus.left (({ s with cookies := r.2.1 }.mod id _).heap j) + 0 ≤ _
    rw [mod_at { s with cookies := r.2.1 } id _ it h]
    apply left_put s id j it _ h
    have hu := (seal_cookie mv _ _ r hr).2.1
    unfold RtspBus.left
    simp only [hu]
    exact Nat.le_refl _
  | refuse id it r cb h h1 h2 h3 hr =>
    show RtspBus.left (({ s with cookies := r.2.1 }.mod id _).heap j) + 0 ≤ _
    rw [mod_at { s with cookies := r.2.1 } id _ it h]
    apply left_put s id j it _ h
    rw [left_idle it h3]
    exact left_le _
  | queue id it r raw cb place h h1 h2 h3 h4 hr h5 h6 hd h7 h8 =>
    rw [queue_heap s id it r.2.1 r.2.2 cb place h]
    show _ + 0 ≤ _
    apply left_put s id j it _ h
    rw [left_idle it h3]
    exact left_le _
  | dropOut id it it' evs h hw h1 h2 hy =>
    have hc := why_completions hy j
    show RtspBus.left (if j = id then _ else s.heap j) + _ ≤ _
    split
    · rename_i e; subst e
      rw [h]
      rw [if_pos rfl] at hc
      obtain ⟨e1, e2, e3, e4, _⟩ := why_same hy
      have hu := ((hi.item j it h).w hw).1
      have l1 : RtspBus.left (some it) = 2 := by
        unfold RtspBus.left; simp only
        rw [if_neg (by rw [hu]; simp), if_neg (by rw [hw]; simp), if_pos ⟨h2, h1⟩]
      have l2 : RtspBus.left (some { it' with isOutgoing := false, isSending := false }) = 1 := by
        unfold RtspBus.left; simp only
        rw [e1, e2, if_neg (by rw [hu]; simp), if_neg (by rw [hw]; simp), if_neg (by simp)]
      omega
    · rename_i e
      rw [if_neg e] at hc
      omega
  | dropWait id it it' evs h hw h1 hy =>
    have hc := why_completions hy j
    show RtspBus.left (if j = id then _ else s.heap j) + _ ≤ _
    split
    · rename_i e; subst e
      rw [h]
      rw [if_pos rfl] at hc
      obtain ⟨e1, e2, e3, e4, _⟩ := why_same hy
      have hu := ((hi.item j it h).w hw).1
      have l1 : RtspBus.left (some it) = 1 := by
        unfold RtspBus.left; simp only
        rw [if_neg (by rw [hu]; simp), if_neg (by rw [hw]; simp), if_neg]
        rintro ⟨a, b⟩
        rcases h1 with h1 | h1
        · rw [h1] at b; cases b
        · rw [h1] at a; cases a
      have l2 : RtspBus.left (some { it' with isWaiting := false, timer := false }) = 0 := by
        unfold RtspBus.left; simp only
        rw [e1, if_neg (by rw [hu]; simp), if_pos trivial]
      omega
    · rename_i e
      rw [if_neg e] at hc
      omega
  | block id rest it ho h ha =>
    show RtspBus.left ((s.mod id _).heap j) + 0 ≤ _
    rw [mod_at s id _ it h]
    apply left_put s id j it _ h
    unfold RtspBus.left
    simp only
    repeat' split
    all_goals simp_all
  | part id rest it n ho h hn ha =>
    show RtspBus.left ((s.mod id _).heap j) + 0 ≤ _
    rw [mod_at s id _ it h]
    apply left_put s id j it _ h
    unfold RtspBus.left
    simp only
    repeat' split
    all_goals simp_all
  | fullWait id rest it ho h hc hw ha =>
    show RtspBus.left (if j = id then _ else s.heap j) + 0 ≤ _
    apply left_put s id j it _ h
    unfold RtspBus.left
    simp only
    repeat' split
    all_goals simp_all
  | fullOut id rest it ho h ha hc =>
    show RtspBus.left (if j = id then _ else s.heap j) + 0 ≤ _
    apply left_put s id j it _ h
    unfold RtspBus.left
    simp only
    repeat' split
    all_goals simp_all
  | timers att T hT hU hd =>
    show RtspBus.left ((s.heap j).map _) + 0 ≤ _
    cases s.heap j <;> exact Nat.le_refl _
  | hup T hT hd =>
    show RtspBus.left ((s.heap j).map _) + 0 ≤ _
    cases s.heap j <;> exact Nat.le_refl _

theorem exec_left (mv : Moves) (ops : List Op) (s : St) (r : St × List Event) (hi : Inv s) (h : exec mv s ops = some r) (j : Nat) :
    left (r.1.heap j) + completions j r.2 ≤ left (s.heap j) := by
  have := (exec_ind mv (fun evs x => left (x.heap j) + completions j evs ≤ left (s.heap j)) (by
    intro a b evs e hia hp ht
    have := ht.left hia j
    rw [completions_append]
    omega) ops s [] r hi (by rw [completions_nil]; exact Nat.le_refl _) h).2
  exact this

theorem done_completions (id : Nat) (x : Option Nat) (evs : List Event) (h : .done id x ∈ evs) : 0 < completions id evs :=
  List.countP_pos_iff.mpr ⟨_, h, by simp [isDone]⟩

theorem not_wrote_complete (i : Nat) (it : Item) (x : Option Nat) (j : Nat) (bs : List Byte) : .wrote j bs ∉ complete i it x := by
  unfold complete; split
  · simp
  · simp

theorem why_not_wrote {s : St} {i : Nat} {it it' : Item} {evs : List Event} (h : Why s i it it' evs) (j : Nat) (bs : List Byte) : .wrote j bs ∉ evs := by
  cases h with
  | cancel _ => simp
  | reply _ _ _ =>
    rw [List.mem_cons]
    rintro (h | h)
    · cases h
    · exact not_wrote_complete _ _ _ _ _ h
  | timeout _ => exact not_wrote_complete _ _ _ _ _

theorem neutral_not (s : St) (evs : List Event) (h : Neutral s evs) : (∀ j bs, .wrote j bs ∉ evs) ∧ (∀ j x, .done j x ∉ evs) ∧ (∀ j c r b, .queued j c r b ∉ evs) ∧ .hup ∉ evs := by
  cases h <;> simp

/-- Once a message was given to the socket its callback may run at most once more. -/
theorem Tr.wrote_left {mv : Moves} {s s' : St} {evs : List Event} (h : Tr mv s s' evs) (hi : Inv s) (j : Nat) (bs : List Byte)
    (hw : .wrote j bs ∈ evs) : RtspBus.left (s'.heap j) ≤ 1 := by
  have key : ∀ x : Item, x.msg.isUsed = true → (x.isSending = true ∨ x.isOutgoing = false) → RtspBus.left (some x) ≤ 1 := by
    intro x h1 h2
    unfold RtspBus.left
    simp only
    rw [if_neg (by rw [h1]; simp)]
    split
    · omega
    · rw [if_neg]
      · omega
      · rintro ⟨a, b⟩
        rcases h2 with h2 | h2
        · rw [h2] at b; cases b
        · rw [h2] at a; cases a
  have used : ∀ i rest it, s.outgoing = i :: rest → s.heap i = some it → it.msg.isUsed = true := by
    intro i rest it ho h
    exact ((hi.item i it h).o ((hi.item i it h).oi.mpr (by rw [ho]; exact List.mem_cons_self))).1
  cases h with
  | idle c' _ h hc => exact absurd hw ((neutral_not s _ h).1 j bs)
  | create m => cases hw
  | setCookie id it c h => simp at hw
  | sealed id it r e h hr => simp at hw
  | refuse id it r cb h h1 h2 h3 hr => simp at hw
  | queue id it r raw cb place h h1 h2 h3 h4 hr h5 h6 hd h7 h8 => simp at hw
  | dropOut id it it' evs h hw' h1 h2 hy => exact absurd hw (why_not_wrote hy j bs)
  | dropWait id it it' evs h hw' h1 hy => exact absurd hw (why_not_wrote hy j bs)
  | block id rest it ho h ha =>
    rw [List.mem_singleton] at hw; cases hw
    rw [mod_at s j _ it h, if_pos rfl]
    exact key _ (used j rest it ho h) (Or.inl rfl)
  | part id rest it n ho h hn ha =>
    rw [List.mem_singleton] at hw; cases hw
    rw [mod_at s j _ it h, if_pos rfl]
    exact key _ (used j rest it ho h) (Or.inl rfl)
  | fullWait id rest it ho h hc hw' ha =>
    rw [List.mem_singleton] at hw; cases hw
    show RtspBus.left (if j = j then _ else _) ≤ 1
    rw [if_pos rfl]
    exact key _ (used j rest it ho h) (Or.inl rfl)
  | fullOut id rest it ho h ha hc =>
    rw [List.mem_singleton] at hw; cases hw
    show RtspBus.left (if j = j then _ else _) ≤ 1
    rw [if_pos rfl]
    exact key _ (used j rest it ho h) (Or.inr rfl)
  | timers att T hT hU hd => cases hw
  | hup T hT hd => simp at hw

/-- What is known of a completion in a step. -/
theorem Tr.done {mv : Moves} {s s' : St} {evs : List Event} (h : Tr mv s s' evs) (j : Nat) (x : Option Nat) (hd : .done j x ∈ evs) :
    ∃ it, s.heap j = some it ∧ it.isWaiting = true ∧ it.cb = true ∧
      ((x = none ∧ evs = [.done j none] ∧ it.timer = true) ∨
       (x = some it.msg.cookie ∧ evs = [.arrived it.msg.cookie, .done j (some it.msg.cookie)] ∧ s.dead = false)) := by
  have why : ∀ id it it', s.heap id = some it → it.isWaiting = true → Why s id it it' evs → ∃ it, s.heap j = some it ∧ it.isWaiting = true ∧ it.cb = true ∧
      ((x = none ∧ evs = [.done j none] ∧ it.timer = true) ∨ (x = some it.msg.cookie ∧ evs = [.arrived it.msg.cookie, .done j (some it.msg.cookie)] ∧ s.dead = false)) := by
    intro id it it' hh hw hy
    cases hy with
    | cancel _ => simp at hd
    | reply hl hlo hde =>
      rw [List.mem_cons] at hd
      rcases hd with hd | hd
      · cases hd
      · unfold complete at hd ⊢
        split at hd
        · rename_i hcb
          rw [List.mem_singleton] at hd; cases hd
          exact ⟨it, hh, hw, hcb, Or.inr ⟨rfl, by simp [hcb], hde⟩⟩
        · cases hd
    | timeout ht =>
      unfold complete at hd ⊢
      split at hd
      · rename_i hcb
        rw [List.mem_singleton] at hd; cases hd
        exact ⟨it, hh, hw, hcb, Or.inl ⟨rfl, by simp [hcb], ht⟩⟩
      · cases hd
  cases h with
  | idle c' _ h hc => exact absurd hd ((neutral_not s _ h).2.1 j x)
  | create m => cases hd
  | setCookie id it c h => simp at hd
  | sealed id it r e h hr => simp at hd
  | refuse id it r cb h h1 h2 h3 hr => simp at hd
  | queue id it r raw cb place h h1 h2 h3 h4 hr h5 h6 hde h7 h8 => simp at hd
  | dropOut id it it' evs h hw h1 h2 hy => exact why id it it' h hw hy
  | dropWait id it it' evs h hw h1 hy => exact why id it it' h hw hy
  | block id rest it ho h ha => simp at hd
  | part id rest it n ho h hn ha => simp at hd
  | fullWait id rest it ho h hc hw' ha => simp at hd
  | fullOut id rest it ho h ha hc => simp at hd
  | timers att T hT hU hd' => cases hd
  | hup T hT hd' => simp at hd

/-- Splitting a trace of events at a completion. -/
theorem split_done (evs e a b : List Event) (x : Event) (h : evs ++ e = a ++ x :: b) :
    (∃ b', evs = a ++ x :: b' ∧ b = b' ++ e) ∨ (∃ a', a = evs ++ a' ∧ e = a' ++ x :: b) := by
  rcases List.append_eq_append_iff.mp h with ⟨a', h1, h2⟩ | ⟨b', h1, h2⟩
  · exact Or.inr ⟨a', h1, h2⟩
  · cases b' with
    | nil => exact Or.inr ⟨[], by rw [List.append_nil] at h1; rw [h1]; simp, h2.symm⟩
    | cons y b' =>
      simp only [List.cons_append, List.cons.injEq] at h2
      exact Or.inl ⟨b', by rw [h1, h2.1], h2.2⟩

/-- Of a started call, a completion is the last one. -/
def Last (id : Nat) (evs : List Event) (s : St) : Prop :=
  (∀ a b x, evs = a ++ .done id x :: b → Begun id a → completions id b = 0 ∧ left (s.heap id) = 0) ∧
  (Begun id evs → left (s.heap id) ≤ 1)

theorem Last.step {mv : Moves} {s s' : St} {evs e : List Event} {id : Nat} (hi : Inv s) (hp : Last id evs s) (h : Tr mv s s' e) : Last id (evs ++ e) s' := by
  have hl := h.left hi id
  refine ⟨?_, ?_⟩
  · intro a b x hs hb
    rcases split_done _ _ _ _ _ hs with ⟨b', h1, h2⟩ | ⟨a', h1, h2⟩
    · have := hp.1 a b' x h1 hb
      rw [h2, completions_append]
      omega
    · obtain ⟨bs, hbs⟩ := hb
      have hd : .done id x ∈ e := by rw [h2]; simp
      obtain ⟨it, _, _, _, hcase⟩ := h.done id x hd
      have hbe : Begun id evs := by
        rw [h1, List.mem_append] at hbs
        rcases hbs with hbs | hbs
        · exact ⟨bs, hbs⟩
        · have : .wrote id bs ∈ e := by rw [h2]; exact List.mem_append_left _ hbs
          rcases hcase with ⟨_, he, _⟩ | ⟨_, he, _⟩
          · rw [he] at this; simp at this
          · rw [he] at this; simp at this
      have h3 := hp.2 hbe
      rw [h2, completions_append] at hl
      have h4 : completions id (.done id x :: b) = completions id b + 1 := List.countP_cons_of_pos (by simp [isDone])
      omega
  · rintro ⟨bs, hbs⟩
    rw [List.mem_append] at hbs
    rcases hbs with hbs | hbs
    · have := hp.2 ⟨bs, hbs⟩
      omega
    · exact h.wrote_left hi id bs hbs

theorem last_init (id : Nat) : Last id [] init := by
  refine ⟨?_, ?_⟩
  · intro a b x h
    cases a <;> cases h
  · rintro ⟨_, h⟩; cases h

/-- Accepted calls are used, sealed messages with the cookie and the bytes announced. -/
def Known (evs : List Event) (s : St) : Prop :=
  (∀ j c raw cb, .queued j c raw cb ∈ evs → ∃ it, s.heap j = some it ∧ it.msg.isUsed = true ∧ it.msg.isSealed = true ∧ it.msg.cookie = c ∧ it.msg.raw = some raw ∧ it.cb = cb) ∧
  (∀ j it, s.heap j = some it → it.isWaiting = true → ∃ raw, .queued j it.msg.cookie raw it.cb ∈ evs)

/-- The message of an item that is used and sealed stays the same, and so does whether it has a callback. -/
theorem Tr.kept {mv : Moves} {s s' : St} {evs : List Event} (h : Tr mv s s' evs) (hi : Inv s) (j : Nat) (it : Item) (hj : s.heap j = some it)
    (hu : it.msg.isUsed = true) (hs : it.msg.isSealed = true) :
    ∃ it', s'.heap j = some it' ∧ it'.msg = it.msg ∧ it'.cb = it.cb ∧ (it'.isWaiting = true → it.isWaiting = true) := by
  have put : ∀ (id : Nat) (x y : Item), s.heap id = some y → (y.msg.isUsed = true → y.msg.isSealed = true → x.msg = y.msg ∧ x.cb = y.cb ∧ (x.isWaiting = true → y.isWaiting = true)) →
      ∃ it', (if j = id then some x else s.heap j) = some it' ∧ it'.msg = it.msg ∧ it'.cb = it.cb ∧ (it'.isWaiting = true → it.isWaiting = true) := by
    intro id x y hy hx
    split
    · rename_i e; subst e
      rw [hj] at hy; cases hy
      exact ⟨x, rfl, hx hu hs⟩
    · exact ⟨it, hj, rfl, rfl, fun h => h⟩
  cases h with
  | idle c' _ h hc => exact ⟨it, hj, rfl, rfl, fun h => h⟩
  | create m =>
    refine ⟨it, ?_, rfl, rfl, fun h => h⟩
    show (if j = s.next then _ else s.heap j) = _
    rw [if_neg]
    · exact hj
    · intro e
      rw [hi.fresh j (by omega)] at hj; cases hj
  | setCookie id y c h =>
    rw [mod_at s id _ y h]
    exact put id _ y h (fun _ b => ⟨setCookie_sealed _ _ b, rfl, fun h => h⟩)
  | sealed id y r e h hr =>
    rw [mod_at { s with cookies := r.2.1 } id _ y h]
    exact put id _ y h (fun _ b => ⟨(seal_same mv _ _ r hr b).1, rfl, fun h => h⟩)
  | refuse id y r cb h h1 h2 h3 hr =>
    rw [mod_at { s with cookies := r.2.1 } id _ y h]
    exact put id _ y h (fun a _ => by rw [h3] at a; cases a)
  | queue id y r raw cb place h h1 h2 h3 h4 hr h5 h6 hd h7 h8 =>
    rw [queue_heap s id y r.2.1 r.2.2 cb place h]
    exact put id _ y h (fun a _ => by rw [h3] at a; cases a)
  | dropOut id y it' evs h hw h1 h2 hy =>
    obtain ⟨e1, e2, e3, e4, e5, e6⟩ := why_same hy
    exact put id _ y h (fun _ _ => ⟨e1, e5, fun _ => hw⟩)
  | dropWait id y it' evs h hw h1 hy =>
    obtain ⟨e1, e2, e3, e4, e5, e6⟩ := why_same hy
    exact put id _ y h (fun _ _ => ⟨e1, e5, fun _ => hw⟩)
  | block id rest y ho h ha =>
    rw [mod_at s id _ y h]
    exact put id _ y h (fun _ _ => ⟨rfl, rfl, fun h => h⟩)
  | part id rest y n ho h hn ha =>
    rw [mod_at s id _ y h]
    exact put id _ y h (fun _ _ => ⟨rfl, rfl, fun h => h⟩)
  | fullWait id rest y ho h hc hw ha => exact put id _ y h (fun _ _ => ⟨rfl, rfl, fun _ => hw⟩)
  | fullOut id rest y ho h ha hc => exact put id _ y h (fun _ _ => ⟨rfl, rfl, fun h => h⟩)
  | timers att T hT hU hd => exact ⟨{ it with timer := T j it }, by show Option.map _ (s.heap j) = _; rw [hj]; rfl, rfl, rfl, fun h => h⟩
  | hup T hT hd => exact ⟨{ it with timer := T j it }, by show Option.map _ (s.heap j) = _; rw [hj]; rfl, rfl, rfl, fun h => h⟩

/-- A waiting item was waiting before or was just queued. -/
theorem Tr.waiting {mv : Moves} {s s' : St} {evs : List Event} (h : Tr mv s s' evs) (j : Nat) (x : Item) (hj : s'.heap j = some x)
    (hw : x.isWaiting = true) :
    (∃ it, s.heap j = some it ∧ it.isWaiting = true) ∨ (∃ raw, .queued j x.msg.cookie raw x.cb ∈ evs) := by
  have put : ∀ (id : Nat) (z y : Item), s.heap id = some y → (if j = id then some z else s.heap j) = some x → (z.isWaiting = true → y.isWaiting = true) →
      ∃ it, s.heap j = some it ∧ it.isWaiting = true := by
    intro id z y hy he hz
    split at he
    · rename_i e; subst e
      cases he
      exact ⟨y, hy, hz hw⟩
    · exact ⟨x, he, hw⟩
  cases h with
  | idle c' _ h hc => exact Or.inl ⟨x, hj, hw⟩
  | create m =>
    replace hj : (if j = s.next then some _ else s.heap j) = some x := hj
    split at hj
    · cases hj; cases hw
    · exact Or.inl ⟨x, hj, hw⟩
  | setCookie id y c h =>
    rw [mod_at s id _ y h] at hj
    exact Or.inl (put id _ y h hj (fun h => h))
  | sealed id y r e h hr =>
    rw [mod_at { s with cookies := r.2.1 } id _ y h] at hj
    exact Or.inl (put id _ y h hj (fun h => h))
  | refuse id y r cb h h1 h2 h3 hr =>
    rw [mod_at { s with cookies := r.2.1 } id _ y h] at hj
    exact Or.inl (put id _ y h hj (fun h => h))
  | queue id y r raw cb place h h1 h2 h3 h4 hr h5 h6 hd h7 h8 =>
    rw [queue_heap s id y r.2.1 r.2.2 cb place h] at hj
    by_cases e : j = id
    · subst e
      replace hj : (if j = j then some _ else s.heap j) = some x := hj
      rw [if_pos rfl] at hj
      cases hj
      exact Or.inr ⟨raw, List.mem_cons_self⟩
    · replace hj : (if j = id then some _ else s.heap j) = some x := hj
      rw [if_neg e] at hj
      exact Or.inl ⟨x, hj, hw⟩
  | dropOut id y it' evs h hw' h1 h2 hy => exact Or.inl (put id _ y h hj (fun _ => hw'))
  | dropWait id y it' evs h hw' h1 hy => exact Or.inl (put id _ y h hj (fun _ => hw'))
  | block id rest y ho h ha =>
    rw [mod_at s id _ y h] at hj
    exact Or.inl (put id _ y h hj (fun h => h))
  | part id rest y n ho h hn ha =>
    rw [mod_at s id _ y h] at hj
    exact Or.inl (put id _ y h hj (fun h => h))
  | fullWait id rest y ho h hc hw' ha => exact Or.inl (put id _ y h hj (fun _ => hw'))
  | fullOut id rest y ho h ha hc => exact Or.inl (put id _ y h hj (fun h => h))
  | timers att T hT hU hd =>
    replace hj : Option.map _ (s.heap j) = some x := hj
    rw [Option.map_eq_some_iff] at hj
    obtain ⟨it, hit, rfl⟩ := hj
    exact Or.inl ⟨it, hit, hw⟩
  | hup T hT hd =>
    replace hj : Option.map _ (s.heap j) = some x := hj
    rw [Option.map_eq_some_iff] at hj
    obtain ⟨it, hit, rfl⟩ := hj
    exact Or.inl ⟨it, hit, hw⟩

theorem why_not {s : St} {i : Nat} {it it' : Item} {evs : List Event} (h : Why s i it it' evs) : (∀ j c r b, .queued j c r b ∉ evs) ∧ .hup ∉ evs := by
  cases h with
  | cancel _ => simp
  | reply _ _ _ => unfold complete; split <;> simp
  | timeout _ => unfold complete; split <;> simp

/-- A call that is accepted, spelled out. -/
theorem Tr.queued {mv : Moves} {s s' : St} {evs : List Event} (h : Tr mv s s' evs) (j c : Nat) (raw : List Byte) (cb : Bool)
    (hq : .queued j c raw cb ∈ evs) :
    ∃ it it' r place, s.heap j = some it ∧ it.isOutgoing = false ∧ it.isWaiting = false ∧ it.msg.isUsed = false ∧ it.msg.cookie ≠ 0 ∧
      sealMsg mv s.cookies it.msg = some r ∧ c = r.2.2.cookie ∧
      s'.heap = (fun i => if i = j then some it' else s.heap i) ∧ it' = { it with msg := { r.2.2 with isUsed := true }, cb := cb, isWaiting := true, timer := s.attached && cb, isOutgoing := true } ∧
      it'.msg.isSealed = true ∧ r.2.2.raw = some raw ∧ evs = [.queued j c raw cb, .ret 0] ∧ s'.outgoing = s.outgoing ++ [j] ∧
      s'.waiting = s.waiting.take place ++ j :: s.waiting.drop place ∧
      (isRemote c = true → r.2.2.type = .unknown ∨ r.2.2.type = .reply) ∧ (isRemote c = false → r.2.2.type ≠ .reply) := by
  cases h with
  | idle c' _ h hc => exact absurd hq ((neutral_not s _ h).2.2.1 j c raw cb)
  | create m => cases hq
  | setCookie id it c h => simp at hq
  | sealed id it r e h hr => simp at hq
  | refuse id it r cb h h1 h2 h3 hr => simp at hq
  | queue id it r raw' cb' place h h1 h2 h3 h4 hr h5 h6 hd h7 h8 =>
    simp only [List.mem_cons, List.not_mem_nil, or_false] at hq
    rcases hq with hq | hq
    · cases hq
      exact ⟨it, _, r, place, h, h1, h2, h3, h4, hr, rfl, queue_heap s j it r.2.1 r.2.2 cb place h, rfl, seal_sealed mv _ _ r hr h5, h6, rfl, rfl, rfl, h7, h8⟩
    · cases hq
  | dropOut id it it' evs h hw' h1 h2 hy => exact absurd hq ((why_not hy).1 _ _ _ _)
  | dropWait id it it' evs h hw' h1 hy => exact absurd hq ((why_not hy).1 _ _ _ _)
  | block id rest it ho h ha => simp at hq
  | part id rest it n ho h hn ha => simp at hq
  | fullWait id rest it ho h hc hw' ha => simp at hq
  | fullOut id rest it ho h ha hc => simp at hq
  | timers att T hT hU hd => cases hq
  | hup T hT hd => simp at hq

theorem Known.step {mv : Moves} {s s' : St} {evs e : List Event} (hi : Inv s) (hp : Known evs s) (h : Tr mv s s' e) : Known (evs ++ e) s' := by
  refine ⟨?_, ?_⟩
  · intro j c raw cb hq
    rw [List.mem_append] at hq
    rcases hq with hq | hq
    · obtain ⟨it, h1, h2, h3, h4, h5, h6⟩ := hp.1 j c raw cb hq
      obtain ⟨it', k1, k2, k3, _⟩ := h.kept hi j it h1 h2 h3
      exact ⟨it', k1, by rw [k2]; exact h2, by rw [k2]; exact h3, by rw [k2]; exact h4, by rw [k2]; exact h5, by rw [k3]; exact h6⟩
    · obtain ⟨it, it', r, place, _, _, _, _, _, hr, hc, hh, he, hse, hraw, _⟩ := h.queued j c raw cb hq
      refine ⟨it', by rw [hh]; exact if_pos rfl, by rw [he], hse, by rw [he]; exact hc.symm, by rw [he]; exact hraw, by rw [he]⟩
  · intro j x hx hw
    rcases h.waiting j x hx hw with ⟨it, h1, h2⟩ | ⟨raw, h1⟩
    · obtain ⟨hu, hs⟩ := (hi.item j it h1).w h2
      obtain ⟨it', k1, k2, k3, _⟩ := h.kept hi j it h1 hu hs
      rw [hx] at k1; cases k1
      obtain ⟨raw, hq⟩ := hp.2 j it h1 h2
      rw [k2, k3]
      exact ⟨raw, List.mem_append_left _ hq⟩
    · exact ⟨raw, List.mem_append_right _ h1⟩

theorem known_init : Known [] init := ⟨(fun _ _ _ _ h => by cases h), (fun _ _ h => by cases h)⟩

/-- Each completion belongs to an earlier call with callback, and comes with its reply or with nothing. -/
def Own (evs : List Event) : Prop :=
  ∀ a b j x, evs = a ++ .done j x :: b → ∃ c raw, .queued j c raw true ∈ a ∧ (x = none ∨ (x = some c ∧ a.getLast? = some (.arrived c)))

theorem Own.step {mv : Moves} {s s' : St} {evs e : List Event} (hp : Own evs) (hk : Known evs s) (h : Tr mv s s' e) : Own (evs ++ e) := by
  intro a b j x hs
  rcases split_done _ _ _ _ _ hs with ⟨b', h1, h2⟩ | ⟨a', h1, h2⟩
  · exact hp a b' j x h1
  · obtain ⟨it, h3, h4, h5, hcase⟩ := h.done j x (by rw [h2]; simp)
    obtain ⟨raw, hq⟩ := hk.2 j it h3 h4
    rw [h5] at hq
    refine ⟨it.msg.cookie, raw, by rw [h1]; exact List.mem_append_left _ hq, ?_⟩
    rcases hcase with ⟨hx, _, _⟩ | ⟨hx, he, _⟩
    · exact Or.inl hx
    · refine Or.inr ⟨hx, ?_⟩
      rw [he] at h2
      cases a' with
      | nil => cases h2
      | cons y a' =>
        simp only [List.cons_append, List.cons.injEq] at h2
        cases a' with
        | nil => rw [h1, ← h2.1]; simp
        | cons z a' =>
          have := congrArg List.length h2.2
          simp at this

end Verif.RtspBus
