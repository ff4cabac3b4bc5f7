import Verif.Proof.WpasBusQuiet
/-!
# C26: replies of wpa_supplicant are matched to requests in order

`Spec.knows tr` reads a trace like a user who only sees accepted calls, cancellations, what goes to the socket and
what comes from it.  The theorems are about every sequence of operations on a fresh client or server with fewer
than 2^64 - 1 calls.

What is missing: a request that was handed to `wpas_send` also gets a reply from wpa_supplicant, and this reply is
given to the next call in flight (`sent_request_shifts`), so the matching is only exact for the replies to calls.
Also a call that is made on a bus that hung up is accepted and its callback never runs (`call_after_hup_never`).
-/
namespace Verif.WpasBus
open Verif.C

/-- A run from a fresh bus. -/
theorem run_start (server : Bool) (ops : List Op) (h : Spec.callCount ops < W64) :
    Inv (run (start server) ops).1 (Spec.knows (run (start server) ops).2) ∧
      (Spec.knows (run (start server) ops).2).answers = Spec.answered (run (start server) ops).2 := by
  have := run_keeps ops (Inv.init server) (by show 0 + _ < _; omega)
  refine ⟨this.1, ?_⟩
  rw [show Spec.knows (run (start server) ops).2 = (run (start server) ops).2.foldl Spec.St.next {} from rfl, this.2]
  simp

/-- The callbacks that run are, in order and with their replies, those of the calls that were in flight
when the replies came, without the cancelled ones. -/
theorem replies_matched_partial (server : Bool) (ops : List Op) (h : Spec.callCount ops < W64) :
    Spec.answered (run (start server) ops).2 = (Spec.knows (run (start server) ops).2).answers :=
  (run_start server ops h).2.symm

/-- Messages are written in the order in which they were accepted (less the cancelled ones), and a message is
only written while no call is in flight, so there is at most one call in flight. -/
theorem one_in_flight (server : Bool) (ops : List Op) (h : Spec.callCount ops < W64) :
    (Spec.knows (run (start server) ops).2).orderly = true ∧
      (Spec.knows (run (start server) ops).2).flying.length ≤ 1 :=
  ⟨(run_start server ops h).1.orderly, (run_start server ops h).1.short⟩

/-- No callback runs twice. -/
theorem callback_once (server : Bool) (ops : List Op) (h : Spec.callCount ops < W64) :
    ((Spec.answered (run (start server) ops).2).map (·.1)).Nodup := by
  rw [replies_matched_partial server ops h]
  exact (run_start server ops h).1.once

/-- Cookies are not zero, and no two calls get the same. -/
theorem cookies_distinct (server : Bool) (ops : List Op) (h : Spec.callCount ops < W64) :
    ((Spec.knows (run (start server) ops).2).calls.map (·.2.1)).Nodup ∧
      ∀ k ∈ (Spec.knows (run (start server) ops).2).calls, k.2.1 ≠ 0 :=
  ⟨(run_start server ops h).1.cookies, fun k hk => by
    have := (run_start server ops h).1.below k hk
    omega⟩

/-- A callback does not run after its call was cancelled. -/
theorem cancelled_silent (server : Bool) (ops more : List Op) (id c : Nat) (cb : Bool)
    (h : Spec.callCount (ops ++ more) < W64) (hc : Ev.called id c cb ∈ (run (start server) ops).2) :
    ∀ p, Ev.answered id p ∉ (run (run (start server) ops).1 (.cancel c :: more)).2 := by
  intro p hp
  rw [callCount_append] at h
  obtain ⟨hi, -⟩ := run_start server ops (by omega)
  have hmem : (id, c, cb) ∈ (Spec.knows (run (start server) ops).2).calls := by
    have grows : ∀ (tr : List Ev) (s : Spec.St), (∀ k ∈ s.calls, k ∈ (tr.foldl Spec.St.next s).calls) ∧
        (Ev.called id c cb ∈ tr → (id, c, cb) ∈ (tr.foldl Spec.St.next s).calls) := by
      intro tr
      induction tr with
      | nil => intro s; exact ⟨fun k hk => hk, fun hm => by simp at hm⟩
      | cons e t ih =>
        intro s
        have hstep : ∀ k ∈ s.calls, k ∈ (s.next e).calls := by
          intro k hk
          cases e with
          | called i c' b => exact List.mem_append_left _ hk
          | wrote i => unfold Spec.St.next; dsimp only; split <;> exact hk
          | got q => unfold Spec.St.next; dsimp only; split <;> exact hk
          | _ => exact hk
        refine ⟨fun k hk => (ih (s.next e)).1 k (hstep k hk), fun hm => ?_⟩
        rcases List.mem_cons.mp hm with rfl | hm
        · exact (ih _).1 _ (List.mem_append_right _ (by simp))
        · exact (ih _).2 hm
    exact (grows _ {}).2 hc
  have hc0 : c ≠ 0 := by have := hi.below _ hmem; simp only at this; omega
  obtain ⟨hk, hcc⟩ := cancel_keeps hi c
  have hbound : (run (start server) ops).1.cookies ≤ Spec.callCount ops := by
    have : ∀ (l : List Op) (w : Bus), w.cookies + Spec.callCount l < W64 → (run w l).1.cookies ≤ w.cookies + Spec.callCount l := by
      intro l
      induction l with
      | nil => intro w _; exact Nat.le_add_right _ _
      | cons o t ih =>
        intro w hw
        rw [callCount_cons] at hw ⊢
        have hstep : (step w o).1.cookies ≤ w.cookies + Spec.callCount [o] := by
          exact step_cookies w o (by omega)
        have := ih (step w o).1 (by omega)
        simp only [run]
        omega
    have := this ops (start server) (by show 0 + _ < _; omega)
    simpa [start] using this
  have hev : (cancel (run (start server) ops).1 c).2 = [.cancelled c] := by
    unfold cancel
    rw [if_neg hc0]
    split
    · rfl
    · split <;> rfl
  have hdr : id ∈ (((cancel (run (start server) ops).1 c).2).foldl Spec.St.next
      (Spec.knows (run (start server) ops).2)).dropped := by
    rw [hev]
    exact List.mem_append_right _ ((hi.owner hmem).mpr rfl)
  have hk' := run_keeps more hk.1 (by rw [hcc]; omega)
  have hsil := dropped_silent (run (cancel (run (start server) ops).1 c).1 more).2 _ id hdr
  have hin : (id, p) ∈ Spec.answered (run (cancel (run (start server) ops).1 c).1 more).2 := by
    have hp' : Ev.answered id p ∈ (cancel (run (start server) ops).1 c).2 ++ (run (cancel (run (start server) ops).1 c).1 more).2 := hp
    rw [hev] at hp'
    simp only [List.singleton_append, List.mem_cons, reduceCtorEq, false_or] at hp'
    exact List.mem_filterMap.mpr ⟨_, hp', rfl⟩
  obtain ⟨x, hx⟩ := List.append_of_mem hin
  obtain ⟨y, hxy⟩ := hx
  have hnd := hk'.1.once
  have hans := hk'.2
  rcases hsil (id, p) (by rw [hans]; exact List.mem_append_right _ hin) with h1 | h1
  · rw [hans, List.map_append, List.nodup_append] at hnd
    exact hnd.2.2 id (List.mem_map.mpr ⟨_, h1, rfl⟩) id (List.mem_map.mpr ⟨_, hin, rfl⟩) rfl
  · exact h1 rfl

/-- After the hang-up was reported nothing is written, delivered or reported any more. -/
theorem silent_after_hup (server : Bool) (ops : List Op) (a b : List Ev)
    (h : (run (start server) ops).2 = a ++ Ev.hup :: b) :
    ∀ e ∈ b, (∃ i c cb, e = .called i c cb) ∨ (∃ i, e = .submitted i) ∨ ∃ c, e = .cancelled c :=
  hup_run ops (start server) a b h

/-- The next message is written as soon as the socket takes it, unless a call is in flight. -/
theorem next_is_written (server : Bool) (ops : List Op) (h : Spec.callCount ops < W64) (id : Nat) (call : Bool)
    (rest : List (Nat × Bool)) (ha : (run (start server) ops).1.attached = true)
    (hf : (Spec.knows (run (start server) ops).2).flying = [])
    (hu : (Spec.knows (run (start server) ops).2).unsent = (id, call) :: rest) (inp hup : Bool) (r : ReadRes) :
    Ev.wrote id ∈ (step (run (start server) ops).1 (.io inp true hup .ok r)).2 := by
  obtain ⟨hi, -⟩ := run_start server ops h
  have hq : (run (start server) ops).1.queue = id :: rest.map (·.1) := by
    rw [hi.queue, hf, hu]; rfl
  obtain ⟨o, ho, hs, -⟩ := hi.unsent (id, call) (by rw [hu]; simp)
  unfold step
  dsimp only
  unfold io
  rw [if_neg (by simp [ha])]
  dsimp only
  refine List.mem_append_left _ ?_
  rw [if_pos rfl]
  unfold write
  rw [hq]
  simp only at ho
  simp only [ho]
  rw [if_neg (by simp [hs]), if_neg (by simp)]
  split <;> simp

/-- A message is written only when the socket is writable and takes it. -/
theorem written_only_if_taken (w : Bus) (o : Op) (id : Nat) (h : Ev.wrote id ∈ (step w o).2) :
    ∃ inp hup r, o = .io inp true hup .ok r := by
  have hhang : ∀ v : Bus, Ev.wrote id ∉ (hangup v).2 := by
    intro v; unfold hangup; split <;> simp
  have hend : ∀ (v : Bus) b r, Ev.wrote id ∉ (ioEnd v b r).2 := by
    intro v b r; unfold ioEnd; split
    · exact hhang v
    · simp
  have hread : ∀ (v : Bus) r, Ev.wrote id ∉ (read v r).2.2 := by
    intro v r; unfold read
    repeat' split
    all_goals simp
  have hwr : ∀ (v : Bus) s, Ev.wrote id ∈ (write v s).2.2 → s = .ok := by
    intro v s h
    apply Classical.byContradiction
    intro hs
    unfold write at h
    split at h
    · simp at h
    · split at h
      · simp at h
      · split at h
        · simp at h
        · simp at h
  cases o with
  | io inp out hup s r =>
    unfold step at h
    dsimp only at h
    unfold io at h
    split at h
    · simp at h
    · dsimp only at h
      rcases List.mem_append.1 h with hw | h
      · split at hw
        · rename_i ho
          subst ho
          refine ⟨inp, hup, r, ?_⟩
          rw [hwr w s hw]
        · simp at hw
      · exfalso
        revert h
        generalize (if out = true then write w s else (SendRes.ok, w, [])) = x
        intro h
        unfold ioRead at h
        split at h
        · cases r with
          | again =>
            dsimp only at h
            rcases List.mem_append.1 h with h | h
            · exact hread _ _ h
            · exact hend _ _ _ h
          | err =>
            dsimp only at h
            rcases List.mem_append.1 h with h | h
            · exact hread _ _ h
            · exact hhang _ h
          | msg a b => exact hread _ _ h
        · exact hend _ _ _ h
  | call i c b =>
    unfold step at h; dsimp only at h; unfold callAsync at h
    repeat' split at h
    all_goals simp at h
  | cancel c =>
    unfold step at h; dsimp only at h; unfold cancel at h
    repeat' split at h
    all_goals simp at h
  | send i b =>
    unfold step at h; dsimp only at h; unfold send at h
    repeat' split at h
    all_goals simp at h
  | timer =>
    unfold step at h; dsimp only at h; unfold timer at h
    split at h
    · simp at h
    · split at h
      · simp at h
      · exact absurd h (hhang w)
  | _ => simp [step] at h

example : Ev.wrote 0 ∈ (step (run (start false) [.newMsg true, .attach, .send 0 true]).1 (.io true true false .ok .again)).2 ∧
    (step (run (start false) [.newMsg true, .attach, .send 0 true]).1 (.io true true false .again .again)).2 = [] := by
  decide +kernel

/-- The next reply is given to the call in flight, unless it was cancelled or has no callback. -/
theorem reply_is_delivered (server : Bool) (ops : List Op) (h : Spec.callCount ops < W64) (id p : Nat)
    (ha : (run (start server) ops).1.attached = true)
    (hf : (Spec.knows (run (start server) ops).2).flying = [id])
    (hw : Spec.wanted (Spec.knows (run (start server) ops).2) id = true) (out hup : Bool) (s : SendRes) :
    Ev.answered id p ∈ (step (run (start server) ops).1 (.io true out hup s (.msg true p))).2 := by
  obtain ⟨hi, -⟩ := run_start server ops h
  obtain ⟨o, ho, hs, -⟩ := hi.flying id (by rw [hf]; simp)
  have hq : (run (start server) ops).1.queue = id :: (Spec.knows (run (start server) ops).2).unsent.map (·.1) := by
    rw [hi.queue, hf]; rfl
  have hwr : ∀ r, write (run (start server) ops).1 r = (.ok, (run (start server) ops).1, []) := by
    intro r
    unfold write
    rw [hq]
    simp only [ho]
    rw [if_pos hs]
  have hrd := (read_keeps hi (.msg true p)).1.2
  have hgot : Ev.answered id p ∈ (read (run (start server) ops).1 (.msg true p)).2.2 := by
    have hfirst : ∃ t, (read (run (start server) ops).1 (.msg true p)).2.2 = .got p :: t ∧ ∀ e ∈ t, ∃ i q, e = Ev.answered i q := by
      unfold read
      rw [hq]
      simp only [ho]
      rw [if_neg (by simp [hs])]
      split
      · exact ⟨[], rfl, by simp⟩
      · split
        · exact ⟨_, rfl, by simp⟩
        · exact ⟨[], rfl, by simp⟩
    obtain ⟨t, ht, hall⟩ := hfirst
    rw [ht] at hrd ⊢
    have hquiet : ∀ (t : List Ev) (s : Spec.St), (∀ e ∈ t, ∃ i q, e = Ev.answered i q) → t.foldl Spec.St.next s = s := by
      intro t
      induction t with
      | nil => intro s _; rfl
      | cons e t ih =>
        intro s he
        obtain ⟨i, q, rfl⟩ := he e (by simp)
        exact ih s (fun e h => he e (by simp [h]))
    rw [List.foldl_cons, hquiet t _ hall] at hrd
    have hnext : ((Spec.knows (run (start server) ops).2).next (.got p)).answers =
        (Spec.knows (run (start server) ops).2).answers ++ [(id, p)] := by
      unfold Spec.St.next
      simp [hf, hw]
    rw [hnext] at hrd
    have := List.append_cancel_left hrd
    have hm : (id, p) ∈ Spec.answered (Ev.got p :: t) := by rw [← this]; simp
    obtain ⟨e, he, hee⟩ := List.mem_filterMap.mp hm
    cases e <;> simp at hee
    obtain ⟨rfl, e2⟩ := hee
    rw [e2] at he
    exact he
  unfold step
  dsimp only
  unfold io
  rw [if_neg (by simp [ha])]
  dsimp only
  refine List.mem_append_right _ ?_
  unfold ioRead
  rw [if_pos (Or.inl rfl)]
  cases out with
  | true => rw [if_pos rfl, hwr]; exact hgot
  | false => rw [if_neg (by simp)]; exact hgot

/-- Two calls are answered in order; the second is written only after the first reply. -/
example : (run (start false) [.newMsg true, .newMsg true, .attach, .call 0 true true, .call 1 true true,
    .io false true false .ok .again, .io false true false .ok .again, .io true true false .ok (.msg true 70),
    .io true false false .ok (.msg false 5), .io false true false .ok .again, .io true false false .ok (.msg true 71)]).2 =
    [.called 0 1 true, .called 1 2 true, .wrote 0, .got 70, .answered 0 70, .event 5, .wrote 1, .got 71, .answered 1 71] := by
  decide +kernel

/-- The first call is cancelled in flight: its reply is swallowed. -/
example : (run (start false) [.newMsg true, .newMsg true, .attach, .call 0 true true, .call 1 true true,
    .io false true false .ok .again, .cancel 1, .io true true false .ok (.msg true 70),
    .io false true false .ok .again, .io true false false .ok (.msg true 71)]).2 =
    [.called 0 1 true, .called 1 2 true, .wrote 0, .cancelled 1, .got 70, .wrote 1, .got 71, .answered 1 71] := by
  decide +kernel

/-- The timer ends the bus. -/
example : (run (start false) [.newMsg true, .attach, .call 0 true true, .io false true false .ok .again, .timer,
    .io true false false .ok (.msg true 70)]).2 = [.called 0 1 true, .wrote 0, .hup] := by
  decide +kernel

/-- A request given to `wpas_send` gets a reply as well.  Here reply 70 belongs to message 0 and is delivered to the
call 1, whose own reply 71 is then lost. -/
theorem sent_request_shifts : (run (start false) [.newMsg true, .newMsg true, .attach, .send 0 true, .call 1 true true,
    .io false true false .ok .again, .io false true false .ok .again, .io true false false .ok (.msg true 70),
    .io true false false .ok (.msg true 71)]).2 =
    [.submitted 0, .called 1 1 true, .wrote 0, .wrote 1, .got 70, .answered 1 70, .got 71] := by
  decide +kernel

/-- A call on a bus that hung up is accepted; whatever happens afterwards, it is never answered. -/
theorem call_after_hup_never (ops : List Op) :
    (run (start false) [.newMsg true, .attach, .io false false true .ok .again, .call 0 true true]).2 =
      [.hup, .called 0 1 true] ∧
    ∀ p, Ev.answered 0 p ∉ (run (start false)
      ([.newMsg true, .attach, .io false false true .ok .again, .call 0 true true] ++ ops)).2 := by
  refine ⟨by decide +kernel, fun p hp => ?_⟩
  rw [run_append] at hp
  have h1 : (run (start false) [.newMsg true, .attach, .io false false true .ok .again, .call 0 true true]).2 =
      [.hup, .called 0 1 true] := by decide +kernel
  have := silent_after_hup false ([.newMsg true, .attach, .io false false true .ok .again, .call 0 true true] ++ ops) []
    (.called 0 1 true :: (run (run (start false) [.newMsg true, .attach, .io false false true .ok .again,
      .call 0 true true]).1 ops).2) (by rw [run_append]; dsimp only; rw [h1]; rfl)
  dsimp only at hp
  rw [h1] at hp
  simp only [List.cons_append, List.mem_cons, reduceCtorEq, false_or, List.nil_append] at hp
  rcases this _ (List.mem_cons_of_mem _ hp) with ⟨_, _, _, e⟩ | ⟨_, e⟩ | ⟨_, e⟩ <;> simp at e

end Verif.WpasBus
