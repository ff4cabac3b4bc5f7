import Verif.Proof.Sockets
/-!
# C140: the sockets of the connections to wpa_supplicant and the files they leave

What is missing from the full claim: making a server removes any file at its path that is not a listening socket, whatever it is (`create_removes_file`), and closing a bus removes what is at its path then, even if it is the
socket of somebody else who listens there (`close_removes_other`).
-/
namespace Verif.Sockets.Props
open Verif.C Verif.Sockets Verif.Sockets.Spec

/-- The text of a client's name. -/
def name (pid c : Nat) : List Byte := bytes "/tmp/.miracle-wpas-" ++ dec pid ++ bytes "-" ++ dec c

theorem open_name (s0 : Proc) (h0 : Fresh s0) (ops : List Op) (hc : opens ops + 1 < W64) :
    clientName (run s0 ops).pid (((run s0 ops).counter + 1) % W64) = name s0.pid ((run s0 ops).counter + 1) := by
  obtain ⟨h1, h2⟩ := named_run ops (fresh_named h0) (by rw [h0.counter]; omega)
  rw [h0.counter] at h2
  rw [Nat.mod_eq_of_lt (by omega), clientName_full _ _ h1.pid (by omega), pid_run]
  rfl

/-- **C140.** A client can be opened exactly if there is a descriptor for it, its own name can be taken, the control path has a meaning and somebody listens there. It is then connected to just that socket, can be
answered at its name, and nothing else has changed; what was left at its name by a process that is gone does not matter. (The path is not its own name.) -/
theorem open_exact (s0 : Proc) (h0 : Fresh s0) (ops : List Op) (hc : opens ops + 1 < W64) (path : List Byte) (nofd : Bool) (hp : path ≠ []) :
    let s := run s0 ops
    let n := name s0.pid (s.counter + 1)
    path ≠ n →
    ((step s (.open path nofd)).1 = 0 ↔ nofd = false ∧ s.w.locked n = false ∧ s.w.node n ≠ some .dir ∧ ∃ a i, Means path a ∧ Listens s.w a i) ∧
    (∀ a i, (step s (.open path nofd)).1 = 0 → Means path a → Listens s.w a i →
      let s' := (step s (.open path nofd)).2
      s'.busses = s.busses ++ [⟨s.w.next, n, false, some i, true⟩] ∧ Listens s'.w (.path n) s.w.next ∧ Listens s'.w a i ∧ OnlyAt n s.w s'.w) := by
  intro s n hpn
  have hi : Inv s _ := inv_run ops (fresh_inv h0)
  have hname : clientName s.pid ((s.counter + 1) % W64) = n := open_name s0 h0 ops hc
  have hstep : ∀ r, newClient s.w n path nofd = r → step s (.open path nofd) =
      (r.1, { s with w := r.2.1, counter := if nofd then s.counter else (s.counter + 1) % W64, busses := s.busses ++ r.2.2.toList }) := by
    intro r hr
    unfold step
    dsimp only
    rw [hname, hr]
  -- listening is the same before and after the own name is taken
  have hlist : ∀ a b, addrOf path = some (a, b) → ∀ i, Listens (put (socket s.w).2 n (some (.sock s.w.next))) a i ↔ Listens s.w a i := by
    intro a b ha i
    rw [← listens_socket hi.nodes hi.abs]
    cases a with
    | path p =>
      have hpp := ((addrOf_path ha).2 p rfl).1
      unfold Listens put
      dsimp only
      rw [if_neg (by rw [hpp]; exact hpn)]
    | abs q => exact Iff.rfl
  cases nofd with
  | true =>
    rw [hstep _ rfl]
    refine ⟨⟨fun h => absurd h ?_, fun h => absurd h.1 (by decide)⟩, fun a i h => absurd h ?_⟩
    · exact (by decide : ¬ (-EMFILE : Int) = 0)
    · exact (by decide : ¬ (-EMFILE : Int) = 0)
  | false =>
    by_cases hb : s.w.locked n = true ∨ s.w.node n = some .dir
    · obtain ⟨e, he, hr⟩ := newClient_unbound s.w n path hb
      rw [hstep _ hr]
      dsimp only
      refine ⟨⟨fun h => absurd h (by omega), ?_⟩, fun a i h => absurd h (by omega)⟩
      rintro ⟨_, h1, h2, _⟩
      rcases hb with hb | hb
      · rw [hb] at h1; cases h1
      · exact absurd hb h2
    · have h1 : s.w.locked n = false := by
        cases hl : s.w.locked n with
        | false => rfl
        | true => exact absurd (Or.inl hl) hb
      have h2 : s.w.node n ≠ some .dir := fun hd => hb (Or.inr hd)
      rcases Option.eq_none_or_eq_some (addrOf path) with ha | ⟨⟨a, b⟩, ha⟩
      · have hr := newClient_bound s.w n path h1 h2
        rw [ha] at hr
        rw [hstep _ hr]
        dsimp only
        have hno : ∀ a, ¬ Means path a := by
          intro a hm
          obtain ⟨b, hb, _⟩ := addrOf_means hm
          rw [ha] at hb; cases hb
        refine ⟨⟨fun h => absurd h (by decide), ?_⟩, fun a i h => absurd h (by decide)⟩
        rintro ⟨_, _, _, a, i, hm, _⟩
        exact absurd hm (hno a)
      · have hmean : ∀ a', Means path a' → a' = a := by
          intro a' hm
          obtain ⟨b', hb', _⟩ := addrOf_means hm
          rw [ha] at hb'
          cases hb'
          rfl
        have hm : Means path a := means_of_addr hp ha
        have hr := newClient_bound s.w n path h1 h2
        rw [ha] at hr
        dsimp only at hr
        cases hcn : connect (put (socket s.w).2 n (some (.sock s.w.next))) a with
        | inl e =>
          rw [hcn] at hr
          dsimp only at hr
          have he := connect_neg hcn
          rw [hstep _ hr]
          dsimp only
          refine ⟨⟨fun h => absurd h (by omega), ?_⟩, fun a i h => absurd h (by omega)⟩
          rintro ⟨_, _, _, a', i, hm', hl⟩
          rw [hmean a' hm'] at hl
          have := (connect_iff _ _ _).mpr ((hlist a b ha i).mpr hl)
          rw [hcn] at this
          cases this
        | inr i =>
          rw [hcn] at hr
          dsimp only at hr
          have hl := (hlist a b ha i).mp ((connect_iff _ _ _).mp hcn)
          rw [hstep _ hr]
          dsimp only
          refine ⟨⟨fun _ => ⟨rfl, h1, h2, a, i, hm, hl⟩, fun _ => rfl⟩, ?_⟩
          intro a' i' _ hm' hl'
          rw [hmean a' hm'] at hl' ⊢
          have hii : i' = i := by
            have h3 := (connect_iff s.w a i').mpr hl'
            have h4 := (connect_iff s.w a i).mpr hl
            rw [h3] at h4
            cases h4; rfl
          subst hii
          refine ⟨rfl, ⟨?_, ?_⟩, (hlist a b ha i').mpr hl', ?_, rfl, ?_, rfl⟩
          · exact if_pos rfl
          · exact if_pos rfl
          · intro q hq
            exact if_neg hq
          · intro j hj
            exact if_neg (by omega)

/-- **C140.** A client that cannot be opened leaves nothing behind: nobody is connected, the busses are the same, and no file has changed but for what was left at its own name. -/
theorem open_failed (s0 : Proc) (h0 : Fresh s0) (ops : List Op) (hc : opens ops + 1 < W64) (path : List Byte) (nofd : Bool) :
    let s := run s0 ops
    let n := name s0.pid (s.counter + 1)
    let r := step s (.open path nofd)
    r.1 ≠ 0 → r.1 < 0 ∧ r.2.busses = s.busses ∧ OnlyAt n s.w r.2.w ∧ (r.2.w.node n = none ∨ r.2.w.node n = s.w.node n) := by
  intro s n r hr0
  have hi : Inv s _ := inv_run ops (fresh_inv h0)
  have hname : clientName s.pid ((s.counter + 1) % W64) = n := open_name s0 h0 ops hc
  have hr : r = ((newClient s.w n path nofd).1, { s with w := (newClient s.w n path nofd).2.1, counter := if nofd then s.counter else (s.counter + 1) % W64, busses := s.busses ++ (newClient s.w n path nofd).2.2.toList }) := by
    show step s (.open path nofd) = _
    unfold step
    dsimp only
    rw [hname]
  rcases newClient_effect s.w n path nofd with ⟨rfl, e⟩ | ⟨rfl, e, m, he, hm, h⟩ | ⟨rfl, h1, h2, i, h⟩
  · rw [hr, e]
    exact ⟨by show -EMFILE < 0; decide, by simp, ⟨fun _ _ => rfl, rfl, fun _ _ => rfl, rfl⟩, Or.inr rfl⟩
  · rw [hr, h]
    refine ⟨he, by simp, ⟨fun q hq => if_neg hq, rfl, ?_, rfl⟩, ?_⟩
    · intro j hj
      show (if j = s.w.next then false else if j = s.w.next then true else s.w.live j) = _
      rw [if_neg (by omega), if_neg (by omega)]
    · rcases hm with rfl | rfl
      · exact Or.inl (if_pos rfl)
      · exact Or.inr (if_pos rfl)
  · rw [hr, h] at hr0
    exact absurd rfl hr0

/-- **C140.** A server can be made exactly if there is a descriptor, the control path has a meaning, nobody listens there and, for a path, it can be taken: no directory is there and it may be changed. A server that
listens is never disturbed. A server that cannot be made changes nothing. -/
theorem create_exact (s0 : Proc) (h0 : Fresh s0) (ops : List Op) (path : List Byte) (nofd : Bool) (a : Addr) (hm : Means path a) :
    let s := run s0 ops
    let r := step s (.create path nofd)
    (r.1 = 0 ↔ nofd = false ∧ (∀ i, ¬ Listens s.w a i) ∧ ∀ p, a = .path p → s.w.locked p = false ∧ s.w.node p ≠ some .dir) ∧
    (r.1 = 0 → (∃ n, r.2.busses = s.busses ++ [⟨s.w.next, n, true, none, true⟩]) ∧ Listens r.2.w a s.w.next ∧
      (∀ q, a ≠ .path q → r.2.w.node q = s.w.node q) ∧ (∀ q, a ≠ .abs q → r.2.w.abs q = s.w.abs q)) ∧
    (r.1 ≠ 0 → r.1 < 0 ∧ r.2.busses = s.busses ∧ r.2.w.node = s.w.node ∧ r.2.w.abs = s.w.abs) ∧
    (∀ i, Listens s.w a i → nofd = false → r.1 = -98) ∧ (∀ i b, Listens s.w b i → Listens r.2.w b i) := by
  intro s r
  have hi : Inv s _ := inv_run ops (fresh_inv h0)
  have hr : r = ((newServer s.w path nofd).1, { s with w := (newServer s.w path nofd).2.1, busses := s.busses ++ (newServer s.w path nofd).2.2.toList }) := rfl
  obtain ⟨b, ha, hb⟩ := addrOf_means hm
  have hp : ∀ p, a = .path p → p = path := fun p h => ((addrOf_path ha).2 p h).1
  obtain ⟨c1, c2, c3⟩ := bindServer_cases (socket s.w).2 s.w.next path a b hb.mp hp
  have ls : ∀ a i, Listens (socket s.w).2 a i ↔ Listens s.w a i := fun a i => listens_socket hi.nodes hi.abs
  have hlive : ∀ i b, Listens s.w b i → i < s.w.next := fun i b h => hi.live i h.1
  have closed : ∀ i b, Listens s.w b i → Listens (close (socket s.w).2 s.w.next) b i := by
    intro i b h
    have hlt := hlive i b h
    refine ⟨?_, ?_⟩
    · show (if i = s.w.next then false else if i = s.w.next then true else s.w.live i) = true
      rw [if_neg (by omega), if_neg (by omega)]
      exact h.1
    · cases b with
      | path p => exact h.2
      | abs n => exact h.2
  cases nofd with
  | true =>
    have hr' : r = (-EMFILE, { s with w := s.w, busses := s.busses ++ [] }) := hr
    rw [hr']
    refine ⟨⟨fun h => absurd h (by show ¬ (-EMFILE : Int) = 0; decide), fun h => absurd h.1 (by decide)⟩, fun h => absurd h (by show ¬ (-EMFILE : Int) = 0; decide),
      fun _ => ⟨by show -EMFILE < 0; decide, by simp, rfl, rfl⟩, fun _ _ h => absurd h (by decide), fun i b h => h⟩
  | false =>
    rw [newServer_some s.w path a b ha] at hr
    by_cases hl : ∃ i, Listens s.w a i
    · have hl' : ∃ i, Listens (socket s.w).2 a i := by obtain ⟨i, h⟩ := hl; exact ⟨i, (ls a i).mpr h⟩
      rw [c1 hl'] at hr
      have hr' : r = (-EADDRINUSE, { s with w := close (socket s.w).2 s.w.next, busses := s.busses ++ [] }) := hr
      rw [hr']
      obtain ⟨i0, hi0⟩ := hl
      refine ⟨⟨fun h => absurd h (by show ¬ (-EADDRINUSE : Int) = 0; decide), fun h => absurd hi0 (h.2.1 i0)⟩, fun h => absurd h (by show ¬ (-EADDRINUSE : Int) = 0; decide),
        fun _ => ⟨by show -EADDRINUSE < 0; decide, by simp, rfl, rfl⟩, fun _ _ _ => rfl, fun i b h => closed i b h⟩
    · have hl' : ¬ ∃ i, Listens (socket s.w).2 a i := by rintro ⟨i, h⟩; exact hl ⟨i, (ls a i).mp h⟩
      by_cases ht : Taken (socket s.w).2 a
      · obtain ⟨e, he, hbs⟩ := c2 hl' ht
        rw [hbs] at hr
        dsimp only at hr
        rw [if_pos he] at hr
        dsimp only at hr
        rw [hr]
        dsimp only
        refine ⟨⟨fun h => absurd h (by omega), ?_⟩, fun h => absurd h (by omega),
          fun _ => ⟨he, by simp, rfl, rfl⟩, fun i h => absurd ⟨i, h⟩ hl, fun i b h => closed i b h⟩
        rintro ⟨_, _, h3⟩
        cases a with
        | path p =>
          obtain ⟨h4, h5⟩ := h3 p rfl
          rcases ht with ht | ht
          · have ht : s.w.locked p = true := ht
            rw [h4] at ht; cases ht
          · exact absurd ht h5
        | abs n => exact False.elim ht
      · rw [c3 hl' ht] at hr
        dsimp only at hr
        rw [if_neg (by decide)] at hr
        dsimp only at hr
        rw [hr]
        dsimp only
        refine ⟨⟨fun _ => ⟨rfl, fun i h => hl ⟨i, h⟩, ?_⟩, fun _ => rfl⟩, fun _ => ⟨⟨nameOf a, rfl⟩, ?_, ?_, ?_⟩, fun h => absurd rfl h, fun i h => absurd ⟨i, h⟩ hl, ?_⟩
        · rintro p rfl
          refine ⟨?_, fun h => ht (Or.inr h)⟩
          cases h : s.w.locked p with
          | false => rfl
          | true => exact absurd (Or.inl h) ht
        · cases a with
          | path p => exact ⟨if_pos rfl, if_pos rfl⟩
          | abs n => exact ⟨if_pos rfl, if_pos rfl⟩
        · intro q hq
          cases a with
          | path p => exact if_neg (fun h => hq (by rw [h]))
          | abs n => rfl
        · intro q hq
          cases a with
          | path p => rfl
          | abs n => exact if_neg (fun h => hq (by rw [h]))
        · intro i b' h
          have hlt := hlive i b' h
          by_cases hba : b' = a
          · rw [hba] at h; exact absurd ⟨i, h⟩ hl
          · refine ⟨?_, ?_⟩
            · show (bound (socket s.w).2 s.w.next a).live i = true
              have : (bound (socket s.w).2 s.w.next a).live i = (if i = s.w.next then true else s.w.live i) := by cases a <;> rfl
              rw [this, if_neg (by omega)]
              exact h.1
            · cases b' with
              | path q =>
                show (bound (socket s.w).2 s.w.next a).node q = _
                cases a with
                | path p => exact (if_neg (fun h => hba (by rw [h]))).trans h.2
                | abs n => exact h.2
              | abs q =>
                show (bound (socket s.w).2 s.w.next a).abs q = _
                cases a with
                | path p => exact h.2
                | abs n => exact (if_neg (fun h => hba (by rw [h]))).trans h.2

/-- **C140.** Clients that are open have different names, so that answers come to the right one. -/
theorem names_differ (s0 : Proc) (h0 : Fresh s0) (ops : List Op) (hc : opens ops < W64) (i j : Nat) (b c : Bus) (hij : i < j)
    (hi : (run s0 ops).busses[i]? = some b) (hj : (run s0 ops).busses[j]? = some c) (hb : b.server = false) (hc' : c.server = false)
    (ho : b.isOpen = true) (ho' : c.isOpen = true) : b.name ≠ c.name :=
  (named_run ops (fresh_named h0) (by rw [h0.counter]; omega)).1.apart i j b c hij hi hj hb hc' ho ho'

/-- **C140.** Whatever the process and others do: a path that leads to a socket the process made is the name of a bus that is still open. So when all are closed, no socket of the process is left in the file system. -/
theorem nothing_left (s0 : Proc) (h0 : Fresh s0) (ops : List Op) (p : List Byte) (i : Nat) (hn : (run s0 ops).w.node p = some (.sock i)) (hm : i ∈ made s0 ops) :
    ∃ b ∈ (run s0 ops).busses, b.isOpen = true ∧ b.id = i ∧ b.name = p := by
  obtain ⟨b, hb, h1, h2, h3, _⟩ := (inv_run ops (fresh_inv h0)).hold p i hn (by simpa using hm)
  exact ⟨b, hb, h1, h2, h3⟩

/-- **C140.** A socket the process made is open only as long as a bus with it is: neither failures nor closing leave a descriptor. -/
theorem no_descriptor_left (s0 : Proc) (h0 : Fresh s0) (ops : List Op) (i : Nat) (hl : (run s0 ops).w.live i = true) (hm : i ∈ made s0 ops) :
    ∃ b ∈ (run s0 ops).busses, b.isOpen = true ∧ b.id = i :=
  (inv_run ops (fresh_inv h0)).fds i hl (by simpa using hm)

/-- **C140.** Files are left alone whose path was not given to make a server and is not a name of a client. -/
theorem others_untouched (s0 : Proc) (h0 : Fresh s0) (ops : List Op) (ha : Alone ops) (p : List Byte) (hp : p ≠ []) (ho : ¬ Own s0.pid p) (hs : p ∉ served ops) :
    (run s0 ops).w.node p = s0.w.node p :=
  untouched_run p hp ops s0 h0.pid ho (by rw [h0.busses]; simp) ha hs

/-! ### Cases -/

/-- Somebody's daemon listens at `/run/wpa`, a regular file is at `/etc/x`, nothing is locked. -/
def w0 : World :=
  { node := fun p => if p = bytes "/run/wpa" then some (.sock 3) else if p = bytes "/etc/x" then some .file else none,
    abs := fun _ => none, live := fun i => i == 3, next := 4, locked := fun _ => false }

def s0 : Proc := ⟨w0, 77, 0, []⟩

theorem s0_fresh : Fresh s0 := by
  refine ⟨rfl, rfl, by decide, ?_, ?_, ?_⟩
  · intro p i h
    have h : (if p = bytes "/run/wpa" then some (Node.sock 3) else if p = bytes "/etc/x" then some Node.file else none) = some (.sock i) := h
    split at h
    · cases h; decide
    · split at h <;> cases h
  · intro n i h; cases h
  · intro i h
    have h : (i == 3) = true := h
    rw [beq_iff_eq] at h
    rw [h]; decide

-- two clients, one is closed, a third does not find its server: the names, what is left
example : let s := run s0 [.open (bytes "/run/wpa") false, .open (bytes "/run/wpa") false, .close 0, .open (bytes "/run/none") false]
    s.busses.map (fun b => (b.name, b.peer, b.isOpen)) = [([], some 3, false), (bytes "/tmp/.miracle-wpas-77-2", some 3, true)] ∧
    s.w.node (bytes "/tmp/.miracle-wpas-77-1") = none ∧ s.w.node (bytes "/tmp/.miracle-wpas-77-2") = some (.sock 5) ∧
    s.w.node (bytes "/tmp/.miracle-wpas-77-3") = none ∧ made s0 [.open (bytes "/run/wpa") false, .open (bytes "/run/wpa") false, .close 0] = [4, 5] := by decide +kernel

example : Means (bytes "/run/wpa") (.path (bytes "/run/wpa")) ∧ Listens s0.w (.path (bytes "/run/wpa")) 3 := by
  have hl : (bytes "@abstract:").length = 10 := by decide +kernel
  refine ⟨Or.inr ⟨?_, by decide +kernel, by decide +kernel, rfl⟩, by decide +kernel, by show w0.node (bytes "/run/wpa") = _; decide +kernel⟩
  intro n h
  have := congrArg List.length h
  rw [List.length_append, hl] at this
  have h8 : (bytes "/run/wpa").length = 8 := by decide +kernel
  omega

/-- A server that died is replaced, one that listens is not. -/
example : (step s0 (.create (bytes "/run/wpa") false)).1 = -98 ∧ (step (run s0 [.outside (.die 3)]) (.create (bytes "/run/wpa") false)).1 = 0 := by decide +kernel

/-- **C140, negation.** Making a server removes a regular file at its path. -/
theorem create_removes_file : s0.w.node (bytes "/etc/x") = some .file ∧ (step s0 (.create (bytes "/etc/x") false)).1 = 0 ∧
    (run s0 [.create (bytes "/etc/x") false]).w.node (bytes "/etc/x") = some (.sock 4) ∧
    (run s0 [.create (bytes "/etc/x") false, .close 0]).w.node (bytes "/etc/x") = none := by decide +kernel

/-- **C140, negation.** A server whose file was removed by somebody who then listens there himself removes the other's file when it is closed: the other is still there but cannot be reached. -/
theorem close_removes_other :
    let ops : List Op := [.create (bytes "/run/p") false, .outside (.remove (bytes "/run/p")), .outside (.listen (.path (bytes "/run/p")))]
    (run s0 ops).w.node (bytes "/run/p") = some (.sock 5) ∧ (run s0 (ops ++ [.close 0])).w.live 5 = true ∧
      (run s0 (ops ++ [.close 0])).w.node (bytes "/run/p") = none ∧ (step (run s0 (ops ++ [.close 0])) (.open (bytes "/run/p") false)).1 = -2 := by decide +kernel

end Verif.Sockets.Props
