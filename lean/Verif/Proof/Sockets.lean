import Verif.Spec.Sockets
import Verif.Proof.WifidPaths
/-! # Lemmas about the sockets of the connections to wpa_supplicant -/
namespace Verif.Sockets
open Verif.C Spec

theorem dec_len (k : Nat) : ∀ n, n < 10 ^ (k + 1) → (dec n).length ≤ k + 1 := by
  induction k with
  | zero => intro n h; rw [dec_eq, if_pos (by omega)]; simp
  | succ k ih =>
    intro n h
    rw [dec_eq]
    split
    · simp
    · have := ih (n / 10) (by rw [Nat.pow_succ] at h; omega)
      simp; omega

/-- The name of a client in full. -/
def full (pid c : Nat) : List Byte := bytes "/tmp/.miracle-wpas-" ++ dec pid ++ bytes "-" ++ dec c

theorem bytes_len : (bytes "/tmp/.miracle-wpas-").length = 19 ∧ (bytes "-").length = 1 := by decide +kernel

theorem full_len (pid c : Nat) (hp : pid < 2147483648) (hc : c < W64) : (full pid c).length ≤ 50 := by
  have w : W64 = 18446744073709551616 := rfl
  have h1 := dec_len 9 pid (by omega)
  have h2 := dec_len 19 c (by omega)
  unfold full
  simp only [List.length_append, bytes_len.1, bytes_len.2]
  omega

theorem clientName_full (pid c : Nat) (hp : pid < 2147483648) (hc : c < W64) : clientName pid c = full pid c := by
  have := full_len pid c hp hc
  unfold clientName
  exact List.take_of_length_le (by show (full pid c).length ≤ 106; omega)

theorem full_inj (pid c d : Nat) (h : full pid c = full pid d) : c = d := by
  unfold full at h
  exact Wifid.dec_inj (List.append_cancel_left h)

theorem full_ne (pid c : Nat) : full pid c ≠ [] := by
  intro h
  have := congrArg List.length h
  unfold full at this
  simp only [List.length_append, bytes_len.1, List.length_nil] at this
  omega

/-- A world with a path naming something else. -/
def put (w : World) (p : List Byte) (n : Option Node) : World := { w with node := fun q => if q = p then n else w.node q }

theorem put_put (w : World) (p : List Byte) (a b : Option Node) : put (put w p a) p b = put w p b := by
  unfold put
  congr 1
  funext q
  dsimp only
  split <;> rfl

theorem put_same (w : World) (p : List Byte) : put w p (w.node p) = w := by
  unfold put
  have : (fun q => if q = p then w.node p else w.node q) = w.node := by
    funext q; split
    · rename_i h; rw [h]
    · rfl
  rw [this]

theorem unlink_eq (w : World) (p : List Byte) : unlink w p = if w.locked p ∨ w.node p = some .dir then w else put w p none := rfl

theorem bind_path (w : World) (id : Nat) (p : List Byte) :
    bind w id (.path p) = if (w.node p).isSome then (-EADDRINUSE, w) else if w.locked p then (-EACCES, w) else (0, put w p (some (.sock id))) := rfl

theorem bindClient_ok (w : World) (id : Nat) (p : List Byte) (h1 : w.locked p = false) (h2 : w.node p ≠ some .dir) :
    bindClient w id p = (0, put w p (some (.sock id))) := by
  unfold bindClient
  rw [bind_path]
  cases hn : w.node p with
  | none => simp [h1, EADDRINUSE]
  | some n =>
    simp only [Option.isSome_some, if_true]
    rw [unlink_eq, if_neg (by rw [h1, hn]; rintro (h | h); exact absurd h (by decide); exact h2 (hn.trans h)), bind_path]
    rw [if_neg (by simp [put]), if_neg (by show ¬ (w.locked p) = true; rw [h1]; decide), put_put]

theorem bindClient_bad (w : World) (id : Nat) (p : List Byte) (h : w.locked p = true ∨ w.node p = some .dir) :
    ∃ e, e < 0 ∧ bindClient w id p = (e, w) := by
  unfold bindClient
  rw [bind_path]
  cases hn : w.node p with
  | none =>
    rcases h with h | h
    · exact ⟨-EACCES, by decide, by simp [h, EACCES, EADDRINUSE]⟩
    · rw [hn] at h; cases h
  | some n =>
    refine ⟨-EADDRINUSE, by decide, ?_⟩
    simp only [Option.isSome_some, if_true]
    rw [unlink_eq, if_pos h, bind_path, hn]
    rfl

theorem addrOf_means {path : List Byte} {a : Addr} (h : Means path a) : ∃ b, addrOf path = some (a, b) ∧ (b = true ↔ ∃ n, a = .abs n) := by
  have hl : (bytes "@abstract:").length = 10 := by decide +kernel
  rcases h with ⟨n, rfl, hn, rfl⟩ | ⟨h1, h2, h3, rfl⟩
  · refine ⟨true, ?_, by simp⟩
    unfold addrOf
    rw [if_pos (by rw [List.take_append_of_le_length (by omega), List.take_of_length_le (by omega)]), if_neg (by rw [List.length_append, hl]; unfold PATH_MAX; omega),
      List.drop_append_of_le_length (by omega), List.drop_of_length_le (by omega)]
    rfl
  · refine ⟨false, ?_, by simp⟩
    unfold addrOf
    rw [if_neg, if_neg (by unfold PATH_MAX; omega), if_neg h2]
    intro ht
    refine h1 (path.drop 10) ?_
    rw [← ht, List.take_append_drop]

theorem means_of_addr {path : List Byte} {a : Addr} {b : Bool} (hp : path ≠ []) (h : addrOf path = some (a, b)) : Means path a := by
  have hl : (bytes "@abstract:").length = 10 := by decide +kernel
  unfold addrOf at h
  split at h
  · rename_i ht
    split at h
    · cases h
    · rename_i hn
      cases h
      refine Or.inl ⟨path.drop 10, ?_, ?_, rfl⟩
      · rw [← ht, List.take_append_drop]
      · rw [List.length_drop]; unfold PATH_MAX at hn; omega
  · rename_i ht
    split at h
    · cases h
    · rename_i hn
      cases h
      refine Or.inr ⟨?_, hp, by unfold PATH_MAX at hn; omega, rfl⟩
      rintro n rfl
      exact ht (by rw [List.take_append_of_le_length (by omega), List.take_of_length_le (by omega)])

theorem connect_iff (w : World) (a : Addr) (i : Nat) : connect w a = .inr i ↔ Listens w a i := by
  unfold connect Listens
  cases a with
  | path p =>
    dsimp only
    cases hn : w.node p with
    | none => simp
    | some n =>
      cases n with
      | file => simp
      | dir => simp
      | sock j =>
        dsimp only
        split
        · rename_i hj
          constructor
          · intro h; cases h; exact ⟨hj, rfl⟩
          · rintro ⟨_, h⟩; cases h; rfl
        · rename_i hj
          constructor
          · intro h; cases h
          · rintro ⟨h1, h⟩; cases h; exact absurd h1 hj
  | abs n =>
    dsimp only
    cases hn : w.abs n with
    | none => simp
    | some j =>
      dsimp only
      split
      · rename_i hj
        constructor
        · intro h; cases h; exact ⟨hj, rfl⟩
        · rintro ⟨_, h⟩; cases h; rfl
      · rename_i hj
        constructor
        · intro h; cases h
        · rintro ⟨h1, h⟩; cases h; exact absurd h1 hj

theorem connect_neg {w : World} {a : Addr} {e : Int} (h : connect w a = .inl e) : e < 0 := by
  unfold connect at h
  repeat' split at h
  all_goals first | cases h; decide | cases h

theorem newClient_unbound (w : World) (name path : List Byte) (h : w.locked name = true ∨ w.node name = some .dir) :
    ∃ e, e < 0 ∧ newClient w name path false = (e, close (socket w).2 w.next, none) := by
  obtain ⟨e, he, hb⟩ := bindClient_bad (socket w).2 w.next name h
  refine ⟨e, he, ?_⟩
  unfold newClient
  rw [if_neg (by decide)]
  dsimp only
  rw [show (socket w).1 = w.next from rfl, hb]
  dsimp only
  rw [if_pos he, unlink_eq, if_pos (show (socket w).2.locked name = true ∨ (socket w).2.node name = some .dir from h)]

theorem newClient_bound (w : World) (name path : List Byte) (h1 : w.locked name = false) (h2 : w.node name ≠ some .dir) :
    newClient w name path false =
      match addrOf path with
      | none => (-EINVAL, close (put (socket w).2 name none) w.next, none)
      | some a =>
        match connect (put (socket w).2 name (some (.sock w.next))) a.1 with
        | .inl e => (e, close (put (socket w).2 name none) w.next, none)
        | .inr i => (0, put (socket w).2 name (some (.sock w.next)), some ⟨w.next, name, false, some i, true⟩) := by
  have hb := bindClient_ok (socket w).2 w.next name h1 h2
  have hu : unlink (put (socket w).2 name (some (.sock w.next))) name = put (socket w).2 name none := by
    rw [unlink_eq, if_neg, put_put]
    rintro (h | h)
    · exact absurd (h1.symm.trans h) (by decide)
    · simp [put] at h
  unfold newClient
  rw [if_neg (by decide)]
  dsimp only
  rw [show (socket w).1 = w.next from rfl, hb]
  dsimp only
  rw [if_neg (by decide), hu]
  cases addrOf path with
  | none => rfl
  | some a => rfl

/-- Nothing can be bound at an address. -/
def Taken (w : World) : Addr → Prop
  | .path p => w.locked p = true ∨ w.node p = some .dir
  | .abs _ => False

theorem listens_socket {w : World} {a : Addr} {i : Nat} (hn : ∀ p i, w.node p = some (.sock i) → i < w.next) (ha : ∀ n i, w.abs n = some i → i < w.next) :
    Listens (socket w).2 a i ↔ Listens w a i := by
  unfold Listens socket
  cases a with
  | path p =>
    dsimp only
    constructor
    · rintro ⟨h1, h2⟩
      have := hn p i h2
      rw [if_neg (by omega)] at h1
      exact ⟨h1, h2⟩
    · rintro ⟨h1, h2⟩
      have := hn p i h2
      rw [if_neg (by omega)]
      exact ⟨h1, h2⟩
  | abs n =>
    dsimp only
    constructor
    · rintro ⟨h1, h2⟩
      have := ha n i h2
      rw [if_neg (by omega)] at h1
      exact ⟨h1, h2⟩
    · rintro ⟨h1, h2⟩
      have := ha n i h2
      rw [if_neg (by omega)]
      exact ⟨h1, h2⟩

/-- A world in which an address has a new socket. -/
def bound (w : World) (id : Nat) : Addr → World
  | .path p => put w p (some (.sock id))
  | .abs n => { w with abs := fun q => if q = n then some id else w.abs q }

theorem bind_abs_taken {w : World} {id i : Nat} {n : List Byte} (h : Listens w (.abs n) i) : bind w id (.abs n) = (-EADDRINUSE, w) := by
  obtain ⟨h1, h2⟩ := h
  have h2 : w.abs n = some i := h2
  simp only [bind, h2, h1, if_true]

theorem bind_abs_free {w : World} {id : Nat} {n : List Byte} (h : ¬ ∃ i, Listens w (.abs n) i) : bind w id (.abs n) = (0, bound w id (.abs n)) := by
  rcases Option.eq_none_or_eq_some (w.abs n) with h2 | ⟨i, h2⟩
  · simp only [bind, h2]; rfl
  · have : ¬ w.live i = true := fun hl => h ⟨i, hl, h2⟩
    simp only [bind, h2, this]; rfl

theorem bindServer_cases (w : World) (id : Nat) (path : List Byte) (a : Addr) (b : Bool) (hab : b = true → ∃ n, a = .abs n) (hpa : ∀ p, a = .path p → p = path) :
    ((∃ i, Listens w a i) → bindServer w id path (a, b) = (-EADDRINUSE, w)) ∧
    ((¬ ∃ i, Listens w a i) → Taken w a → ∃ e, e < 0 ∧ bindServer w id path (a, b) = (e, w)) ∧
    ((¬ ∃ i, Listens w a i) → ¬ Taken w a → bindServer w id path (a, b) = (0, bound w id a)) := by
  cases a with
  | path p =>
    have hb : b = false := by
      cases b with
      | false => rfl
      | true => obtain ⟨n, hn⟩ := hab rfl; cases hn
    subst hb
    have := hpa p rfl
    subst this
    unfold bindServer
    dsimp only
    rw [bind_path]
    cases hn : w.node p with
    | none =>
      have hnl : ¬ ∃ i, Listens w (.path p) i := by rintro ⟨i, _, h⟩; rw [show w.node p = some (.sock i) from h] at hn; cases hn
      have hc : connect w (.path p) = .inl (-ENOENT) := by unfold connect; dsimp only; rw [hn]
      refine ⟨fun h => absurd h hnl, fun _ ht => ?_, fun _ ht => ?_⟩
      · have hl : w.locked p = true := by
          rcases ht with h | h
          · exact h
          · rw [hn] at h; cases h
        refine ⟨-EACCES, by decide, ?_⟩
        simp only [Option.isSome_none, Bool.false_eq_true, if_false, hl, if_true]
        rw [if_pos (by decide), hc]
        dsimp only
        rw [unlink_eq, if_pos (Or.inl hl), bind_path, hn]
        simp [hl]
      · have hl : w.locked p = false := by
          cases h : w.locked p with
          | false => rfl
          | true => exact absurd (Or.inl h) ht
        simp only [Option.isSome_none, Bool.false_eq_true, if_false, hl]
        rw [if_neg (by decide)]
        rfl
    | some n =>
      simp only [Option.isSome_some, if_true, Bool.false_eq_true, if_false]
      rw [if_pos (show -EADDRINUSE < 0 by decide)]
      refine ⟨?_, ?_, ?_⟩
      · rintro ⟨i, hi⟩
        rw [(connect_iff _ _ _).mpr hi]
      · intro hnl ht
        have hc : ∃ e, connect w (.path p) = .inl e := by
          cases h : connect w (.path p) with
          | inl e => exact ⟨e, rfl⟩
          | inr i => exact absurd ⟨i, (connect_iff _ _ _).mp h⟩ hnl
        obtain ⟨e, hc⟩ := hc
        refine ⟨-EADDRINUSE, by decide, ?_⟩
        rw [hc]
        dsimp only
        rw [unlink_eq, if_pos (show w.locked p = true ∨ w.node p = some .dir from ht), bind_path, hn]
        rfl
      · intro hnl ht
        have hc : ∃ e, connect w (.path p) = .inl e := by
          cases h : connect w (.path p) with
          | inl e => exact ⟨e, rfl⟩
          | inr i => exact absurd ⟨i, (connect_iff _ _ _).mp h⟩ hnl
        obtain ⟨e, hc⟩ := hc
        rw [hc]
        dsimp only
        rw [unlink_eq, if_neg (show ¬ (w.locked p = true ∨ w.node p = some .dir) from ht), bind_path, if_neg (by simp [put]), if_neg (by exact fun h => ht (Or.inl h)), put_put]
        rfl
  | abs n =>
    unfold bindServer
    dsimp only
    by_cases hl : ∃ i, Listens w (.abs n) i
    · refine ⟨fun _ => ?_, fun h => absurd hl h, fun h => absurd hl h⟩
      obtain ⟨i, hi⟩ := hl
      rw [bind_abs_taken hi]
      dsimp only
      rw [if_pos (by decide)]
      split
      · rfl
      · rw [(connect_iff w (.abs n) i).mpr hi]
    · refine ⟨fun h => absurd h hl, fun _ ht => False.elim ht, fun _ _ => ?_⟩
      rw [bind_abs_free hl]
      rfl

/-- What `newClient` can do. -/
theorem newClient_effect (w : World) (name path : List Byte) (nofd : Bool) :
    (nofd = true ∧ newClient w name path nofd = (-EMFILE, w, none)) ∨
    (nofd = false ∧ ∃ e n, e < 0 ∧ (n = none ∨ n = w.node name) ∧ newClient w name path nofd = (e, close (put (socket w).2 name n) w.next, none)) ∨
    (nofd = false ∧ w.locked name = false ∧ w.node name ≠ some .dir ∧
      ∃ i, newClient w name path nofd = (0, put (socket w).2 name (some (.sock w.next)), some ⟨w.next, name, false, some i, true⟩)) := by
  cases nofd with
  | true => exact Or.inl ⟨rfl, rfl⟩
  | false =>
    right
    by_cases h : w.locked name = true ∨ w.node name = some .dir
    · obtain ⟨e, he, hr⟩ := newClient_unbound w name path h
      refine Or.inl ⟨rfl, e, w.node name, he, Or.inr rfl, ?_⟩
      rw [show put (socket w).2 name (w.node name) = (socket w).2 from put_same (socket w).2 name]
      exact hr
    · have h1 : w.locked name = false := by
        cases hl : w.locked name with
        | false => rfl
        | true => exact absurd (Or.inl hl) h
      have h2 : w.node name ≠ some .dir := fun hd => h (Or.inr hd)
      rw [newClient_bound w name path h1 h2]
      cases addrOf path with
      | none => exact Or.inl ⟨rfl, -EINVAL, none, by decide, Or.inl rfl, rfl⟩
      | some a =>
        dsimp only
        cases hc : connect (put (socket w).2 name (some (.sock w.next))) a.1 with
        | inl e => exact Or.inl ⟨rfl, e, none, connect_neg hc, Or.inl rfl, rfl⟩
        | inr i => exact Or.inr ⟨rfl, h1, h2, i, rfl⟩

/-- The name kept for an address. -/
def nameOf : Addr → List Byte
  | .path p => p
  | .abs _ => []

theorem addrOf_path {path : List Byte} {a : Addr} {b : Bool} (h : addrOf path = some (a, b)) :
    (b = true → ∃ n, a = .abs n) ∧ (∀ p, a = .path p → p = path ∧ p ≠ []) := by
  unfold addrOf at h
  split at h
  · split at h
    · cases h
    · cases h
      exact ⟨fun _ => ⟨_, rfl⟩, fun p hp => by cases hp⟩
  · split at h
    · cases h
    · split at h
      · cases h
        exact ⟨fun h => absurd h (by decide), fun p hp => by cases hp⟩
      · rename_i hne
        cases h
        exact ⟨fun h => absurd h (by decide), fun p hp => by cases hp; exact ⟨rfl, hne⟩⟩

theorem newServer_some (w : World) (path : List Byte) (a : Addr) (b : Bool) (h : addrOf path = some (a, b)) :
    newServer w path false = (if (bindServer (socket w).2 w.next path (a, b)).1 < 0
      then ((bindServer (socket w).2 w.next path (a, b)).1, close (bindServer (socket w).2 w.next path (a, b)).2 w.next, none)
      else (0, (bindServer (socket w).2 w.next path (a, b)).2, some ⟨w.next, nameOf a, true, none, true⟩)) := by
  unfold newServer
  rw [if_neg (by decide), h]
  cases a <;> rfl

/-- What `newServer` can do. -/
theorem newServer_effect (w : World) (path : List Byte) (nofd : Bool) :
    (nofd = true ∧ newServer w path nofd = (-EMFILE, w, none)) ∨
    (nofd = false ∧ ∃ e, e < 0 ∧ newServer w path nofd = (e, close (socket w).2 w.next, none)) ∨
    (nofd = false ∧ ∃ a b, addrOf path = some (a, b) ∧ ¬ Taken w a ∧
      newServer w path nofd = (0, bound (socket w).2 w.next a, some ⟨w.next, nameOf a, true, none, true⟩)) := by
  cases nofd with
  | true => exact Or.inl ⟨rfl, rfl⟩
  | false =>
    right
    rcases Option.eq_none_or_eq_some (addrOf path) with h | ⟨⟨a, b⟩, h⟩
    · refine Or.inl ⟨rfl, -EINVAL, by decide, ?_⟩
      unfold newServer
      rw [if_neg (by decide), h]
      rfl
    · obtain ⟨k1, k2⟩ := addrOf_path h
      obtain ⟨c1, c2, c3⟩ := bindServer_cases (socket w).2 w.next path a b k1 (fun p hp => (k2 p hp).1)
      rw [newServer_some w path a b h]
      by_cases hl : ∃ i, Listens (socket w).2 a i
      · rw [c1 hl]
        exact Or.inl ⟨rfl, -EADDRINUSE, by decide, by rw [if_pos (show -EADDRINUSE < 0 by decide)]⟩
      · by_cases ht : Taken (socket w).2 a
        · obtain ⟨e, he, hr⟩ := c2 hl ht
          rw [hr]
          exact Or.inl ⟨rfl, e, he, by rw [if_pos he]⟩
        · rw [c3 hl ht]
          refine Or.inr ⟨rfl, a, b, h, ?_, by rw [if_neg (show ¬ (0 : Int) < 0 by decide)]⟩
          cases a with
          | path p => exact ht
          | abs n => exact id

theorem clientName_ne (pid c : Nat) : clientName pid c ≠ [] := by
  intro h
  have := congrArg List.length h
  unfold clientName at this
  simp only [List.length_take, List.length_append, bytes_len.1, List.length_nil, PATH_MAX] at this
  omega

/-- What holds of a process at any time; `mine` are the sockets it made. -/
structure Inv (s : Proc) (mine : List Nat) : Prop where
  nodes : ∀ p i, s.w.node p = some (.sock i) → i < s.w.next
  abs : ∀ n i, s.w.abs n = some i → i < s.w.next
  live : ∀ i, s.w.live i = true → i < s.w.next
  mineLt : ∀ i ∈ mine, i < s.w.next
  hold : ∀ p i, s.w.node p = some (.sock i) → i ∈ mine → ∃ b ∈ s.busses, b.isOpen = true ∧ b.id = i ∧ b.name = p ∧ p ≠ []
  names : ∀ b ∈ s.busses, b.name ≠ [] → s.w.locked b.name = false
  mineBus : ∀ b ∈ s.busses, b.id ∈ mine
  fds : ∀ i, s.w.live i = true → i ∈ mine → ∃ b ∈ s.busses, b.isOpen = true ∧ b.id = i

theorem fresh_inv {s : Proc} (h : Fresh s) : Inv s [] :=
  ⟨h.nodes, h.abs, h.live, by simp, by simp, by rw [h.busses]; simp, by rw [h.busses]; simp, by simp⟩

/-- The sockets made by a step. -/
def makes (s : Proc) : Op → List Nat
  | .open _ false => [s.w.next]
  | .create _ false => [s.w.next]
  | _ => []

theorem made_cons (s : Proc) (o : Op) (t : List Op) : made s (o :: t) = makes s o ++ made (step s o).2 t := by
  cases o with
  | «open» p n => cases n <;> rfl
  | create p n => cases n <;> rfl
  | close k => rfl
  | outside o => rfl

theorem inv_step {s : Proc} {mine : List Nat} (h : Inv s mine) (o : Op) : Inv (step s o).2 (mine ++ makes s o) := by
  cases o with
  | «open» path nofd =>
    unfold step
    dsimp only
    generalize hname : clientName s.pid ((s.counter + 1) % W64) = name
    rcases newClient_effect s.w name path nofd with ⟨rfl, e⟩ | ⟨rfl, e, n, _, hn, hr⟩ | ⟨rfl, h1, h2, i, hr⟩
    · rw [e]
      dsimp only [makes, Option.toList]
      rw [List.append_nil, List.append_nil]
      exact ⟨h.nodes, h.abs, h.live, h.mineLt, h.hold, h.names, h.mineBus, h.fds⟩
    · rw [hr]
      dsimp only [makes, Option.toList]
      rw [List.append_nil]
      have key : ∀ p i, (if p = name then n else s.w.node p) = some (.sock i) → s.w.node p = some (.sock i) := by
        intro p i hp
        split at hp
        · rename_i hpn
          rcases hn with rfl | rfl
          · cases hp
          · rw [hpn]; exact hp
        · exact hp
      refine ⟨?_, ?_, ?_, ?_, ?_, h.names, ?_, ?_⟩
      · intro p i hp
        have := h.nodes p i (key p i hp)
        show i < s.w.next + 1
        omega
      · intro n i hp
        have := h.abs n i hp
        show i < s.w.next + 1
        omega
      · intro i hi
        have hi' : (if i = s.w.next then false else if i = s.w.next then true else s.w.live i) = true := hi
        split at hi'
        · cases hi'
        · rename_i hne
          have := h.live i (by simpa [hne] using hi')
          show i < s.w.next + 1
          omega
      · intro i hi
        rcases List.mem_append.mp hi with hi | hi
        · have := h.mineLt i hi
          show i < s.w.next + 1
          omega
        · rw [List.mem_singleton.mp hi]
          exact Nat.lt_succ_self _
      · intro p i hp hi
        have hp' := key p i hp
        rcases List.mem_append.mp hi with hi | hi
        · exact h.hold p i hp' hi
        · have := h.nodes p i hp'
          have := List.mem_singleton.mp hi
          omega
      · intro b hb
        exact List.mem_append_left _ (h.mineBus b hb)
      · intro i hi hm
        have hi' : (if i = s.w.next then false else if i = s.w.next then true else s.w.live i) = true := hi
        split at hi'
        · cases hi'
        · rename_i hne
          rcases List.mem_append.mp hm with hm | hm
          · exact h.fds i (by simpa [hne] using hi') hm
          · exact absurd (List.mem_singleton.mp hm) hne
    · rw [hr]
      dsimp only [makes, Option.toList]
      refine ⟨?_, ?_, ?_, ?_, ?_, ?_, ?_, ?_⟩
      · intro p j hp
        have hp : (if p = name then some (Node.sock s.w.next) else s.w.node p) = some (.sock j) := hp
        show j < s.w.next + 1
        split at hp
        · cases hp; omega
        · have := h.nodes p j hp; omega
      · intro n i hp
        have := h.abs n i hp
        show i < s.w.next + 1
        omega
      · intro i hi
        have hi' : (if i = s.w.next then true else s.w.live i) = true := hi
        show i < s.w.next + 1
        split at hi'
        · omega
        · have := h.live i hi'; omega
      · intro i hi
        rcases List.mem_append.mp hi with hi | hi
        · have := h.mineLt i hi
          show i < s.w.next + 1
          omega
        · rw [List.mem_singleton.mp hi]
          exact Nat.lt_succ_self _
      · intro p j hp hj
        have hp : (if p = name then some (Node.sock s.w.next) else s.w.node p) = some (.sock j) := hp
        split at hp
        · rename_i hpn
          cases hp
          exact ⟨_, List.mem_append_right _ (List.mem_singleton.mpr rfl), rfl, rfl, hpn.symm, by rw [hpn, ← hname]; exact clientName_ne _ _⟩
        · have hlt := h.nodes p j hp
          rcases List.mem_append.mp hj with hj | hj
          · obtain ⟨b, hb, q⟩ := h.hold p j hp hj
            exact ⟨b, List.mem_append_left _ hb, q⟩
          · have := List.mem_singleton.mp hj
            omega
      · intro b hb hbn
        rcases List.mem_append.mp hb with hb | hb
        · exact h.names b hb hbn
        · rw [List.mem_singleton.mp hb]
          exact h1
      · intro b hb
        rcases List.mem_append.mp hb with hb | hb
        · exact List.mem_append_left _ (h.mineBus b hb)
        · rw [List.mem_singleton.mp hb]
          exact List.mem_append_right _ (List.mem_singleton.mpr rfl)
      · intro j hj hm
        by_cases hjn : j = s.w.next
        · exact ⟨_, List.mem_append_right _ (List.mem_singleton.mpr rfl), rfl, hjn.symm⟩
        · have hj : (put (socket s.w).2 name (some (.sock s.w.next))).live j = true := hj
          have hj' : (if j = s.w.next then true else s.w.live j) = true := hj
          rw [if_neg hjn] at hj'
          rcases List.mem_append.mp hm with hm | hm
          · obtain ⟨b, hb, q⟩ := h.fds j hj' hm
            exact ⟨b, List.mem_append_left _ hb, q⟩
          · exact absurd (List.mem_singleton.mp hm) hjn
  | create path nofd =>
    unfold step
    dsimp only
    rcases newServer_effect s.w path nofd with ⟨rfl, e⟩ | ⟨rfl, e, _, hr⟩ | ⟨rfl, a, b, ha, ht, hr⟩
    · rw [e]
      dsimp only [makes, Option.toList]
      rw [List.append_nil, List.append_nil]
      exact ⟨h.nodes, h.abs, h.live, h.mineLt, h.hold, h.names, h.mineBus, h.fds⟩
    · rw [hr]
      dsimp only [makes, Option.toList]
      rw [List.append_nil]
      refine ⟨?_, ?_, ?_, ?_, ?_, h.names, ?_, ?_⟩
      · intro p i hp
        have := h.nodes p i hp
        show i < s.w.next + 1
        omega
      · intro n i hp
        have := h.abs n i hp
        show i < s.w.next + 1
        omega
      · intro i hi
        have hi' : (if i = s.w.next then false else if i = s.w.next then true else s.w.live i) = true := hi
        split at hi'
        · cases hi'
        · rename_i hne
          have := h.live i (by simpa [hne] using hi')
          show i < s.w.next + 1
          omega
      · intro i hi
        rcases List.mem_append.mp hi with hi | hi
        · have := h.mineLt i hi
          show i < s.w.next + 1
          omega
        · rw [List.mem_singleton.mp hi]
          exact Nat.lt_succ_self _
      · intro p i hp hi
        rcases List.mem_append.mp hi with hi | hi
        · exact h.hold p i hp hi
        · have := h.nodes p i hp
          have := List.mem_singleton.mp hi
          omega
      · intro b hb
        exact List.mem_append_left _ (h.mineBus b hb)
      · intro i hi hm
        have hi' : (if i = s.w.next then false else if i = s.w.next then true else s.w.live i) = true := hi
        split at hi'
        · cases hi'
        · rename_i hne
          rcases List.mem_append.mp hm with hm | hm
          · exact h.fds i (by simpa [hne] using hi') hm
          · exact absurd (List.mem_singleton.mp hm) hne
    · rw [hr]
      dsimp only [makes, Option.toList]
      have key : ∀ p j, (bound (socket s.w).2 s.w.next a).node p = some (.sock j) → (j = s.w.next ∧ nameOf a = p ∧ p ≠ []) ∨ s.w.node p = some (.sock j) := by
        intro p j hp
        cases a with
        | path q =>
          have hp : (if p = q then some (Node.sock s.w.next) else s.w.node p) = some (.sock j) := hp
          split at hp
          · rename_i hpq
            cases hp
            exact Or.inl ⟨rfl, hpq.symm, by rw [hpq]; exact ((addrOf_path ha).2 q rfl).2⟩
          · exact Or.inr hp
        | abs n => exact Or.inr hp
      have kl : (bound (socket s.w).2 s.w.next a).locked = s.w.locked := by cases a <;> rfl
      have kn : (bound (socket s.w).2 s.w.next a).next = s.w.next + 1 := by cases a <;> rfl
      have kv : (bound (socket s.w).2 s.w.next a).live = (socket s.w).2.live := by cases a <;> rfl
      refine ⟨?_, ?_, ?_, ?_, ?_, ?_, ?_, ?_⟩
      · intro p j hp
        show j < (bound (socket s.w).2 s.w.next a).next
        rw [kn]
        rcases key p j hp with ⟨h', _⟩ | h'
        · omega
        · have := h.nodes p j h'; omega
      · intro n i hp
        show i < (bound (socket s.w).2 s.w.next a).next
        rw [kn]
        cases a with
        | path q => have := h.abs n i hp; omega
        | abs q =>
          have hp : (if n = q then some s.w.next else s.w.abs n) = some i := hp
          split at hp
          · cases hp; omega
          · have := h.abs n i hp; omega
      · intro i hi
        show i < (bound (socket s.w).2 s.w.next a).next
        rw [kn]
        have hi : (bound (socket s.w).2 s.w.next a).live i = true := hi
        rw [kv] at hi
        have hi' : (if i = s.w.next then true else s.w.live i) = true := hi
        split at hi'
        · omega
        · have := h.live i hi'; omega
      · intro i hi
        show i < (bound (socket s.w).2 s.w.next a).next
        rw [kn]
        rcases List.mem_append.mp hi with hi | hi
        · have := h.mineLt i hi
          omega
        · rw [List.mem_singleton.mp hi]
          exact Nat.lt_succ_self _
      · intro p j hp hj
        rcases key p j hp with ⟨rfl, hpn⟩ | h'
        · exact ⟨_, List.mem_append_right _ (List.mem_singleton.mpr rfl), rfl, rfl, hpn.1, hpn.2⟩
        · have hlt := h.nodes p j h'
          rcases List.mem_append.mp hj with hj | hj
          · obtain ⟨b, hb, q⟩ := h.hold p j h' hj
            exact ⟨b, List.mem_append_left _ hb, q⟩
          · have := List.mem_singleton.mp hj
            omega
      · intro b hb hbn
        show (bound (socket s.w).2 s.w.next a).locked b.name = false
        rw [kl]
        rcases List.mem_append.mp hb with hb | hb
        · exact h.names b hb hbn
        · rw [List.mem_singleton.mp hb] at hbn ⊢
          cases a with
          | path p =>
            show s.w.locked p = false
            cases hl : s.w.locked p with
            | false => rfl
            | true => exact absurd (Or.inl hl) ht
          | abs n => exact absurd rfl hbn
      · intro b hb
        rcases List.mem_append.mp hb with hb | hb
        · exact List.mem_append_left _ (h.mineBus b hb)
        · rw [List.mem_singleton.mp hb]
          exact List.mem_append_right _ (List.mem_singleton.mpr rfl)
      · intro j hj hm
        by_cases hjn : j = s.w.next
        · exact ⟨_, List.mem_append_right _ (List.mem_singleton.mpr rfl), rfl, hjn.symm⟩
        · have hj : (bound (socket s.w).2 s.w.next a).live j = true := hj
          rw [kv] at hj
          have hj' : (if j = s.w.next then true else s.w.live j) = true := hj
          rw [if_neg hjn] at hj'
          rcases List.mem_append.mp hm with hm | hm
          · obtain ⟨b, hb, q⟩ := h.fds j hj' hm
            exact ⟨b, List.mem_append_left _ hb, q⟩
          · exact absurd (List.mem_singleton.mp hm) hjn
  | close k =>
    dsimp only [makes]
    rw [List.append_nil]
    unfold step
    dsimp only
    split
    · exact h
    · rename_i b hb
      have hbm : b ∈ s.busses := List.mem_of_getElem? hb
      generalize hW : (closeBus s.w b).1 = W
      have hnode : ∀ p, W.node p = if b.name ≠ [] ∧ p = b.name ∧ s.w.node p ≠ some .dir then none else s.w.node p := by
        intro p
        rw [← hW]
        unfold closeBus
        dsimp only
        by_cases hn : b.name = []
        · have hc : ¬ (b.name ≠ [] ∧ p = b.name ∧ s.w.node p ≠ some .dir) := fun h => h.1 hn
          rw [if_neg hc]
          simp only [hn, ne_eq, not_true_eq_false, if_false]
          split <;> rfl
        · rw [if_pos hn]
          have hl := h.names b hbm hn
          have : ∀ w : World, w.node = s.w.node → w.locked = s.w.locked → (unlink w b.name).node p = if b.name ≠ [] ∧ p = b.name ∧ s.w.node p ≠ some .dir then none else s.w.node p := by
            intro w e1 e2
            unfold unlink
            rw [e1, e2]
            by_cases hd : s.w.node b.name = some .dir
            · rw [if_pos (Or.inr hd), if_neg, e1]
              rintro ⟨_, rfl, h3⟩
              exact h3 hd
            · rw [if_neg (by rintro (h' | h'); rw [hl] at h'; exact absurd h' (by decide); exact hd h')]
              dsimp only
              by_cases hp : p = b.name
              · subst hp; rw [if_pos rfl, if_pos ⟨hn, rfl, hd⟩]
              · rw [if_neg hp, if_neg (fun h => hp h.2.1)]
          split
          · exact this _ rfl rfl
          · exact this _ rfl rfl
      have hrest : W.abs = s.w.abs ∧ W.next = s.w.next ∧ W.locked = s.w.locked ∧ ∀ i, W.live i = true → s.w.live i = true ∧ (b.isOpen = true → i ≠ b.id) := by
        rw [← hW]
        unfold closeBus unlink close
        dsimp only
        repeat' split
        all_goals refine ⟨rfl, rfl, rfl, ?_⟩; intro i hi; first | (have hi : (if i = b.id then false else s.w.live i) = true := hi; split at hi; cases hi; rename_i hib; exact ⟨hi, fun _ => hib⟩) | exact ⟨hi, fun ho => absurd ho (by assumption)⟩
      obtain ⟨r1, r2, r3, r4⟩ := hrest
      have knode : ∀ p i, W.node p = some (.sock i) → s.w.node p = some (.sock i) ∧ (b.name = [] ∨ p ≠ b.name) := by
        intro p i hp
        rw [hnode] at hp
        split at hp
        · cases hp
        · rename_i hc
          refine ⟨hp, ?_⟩
          by_cases hn : b.name = []
          · exact Or.inl hn
          · refine Or.inr fun hpn => hc ⟨hn, hpn, ?_⟩
            rw [hp]; simp
      have kset : ∀ x ∈ s.busses.set k (closeBus s.w b).2, x ∈ s.busses ∨ x = (closeBus s.w b).2 := by
        intro x hx
        exact List.mem_or_eq_of_mem_set hx
      refine ⟨?_, ?_, ?_, ?_, ?_, ?_, ?_, ?_⟩
      · intro p i hp
        show i < W.next
        rw [r2]
        exact h.nodes p i (knode p i hp).1
      · intro n i hp
        show i < W.next
        have hp : W.abs n = some i := hp
        rw [r1] at hp
        rw [r2]
        exact h.abs n i hp
      · intro i hi
        show i < W.next
        rw [r2]
        exact h.live i (r4 i hi).1
      · intro i hi
        show i < W.next
        rw [r2]
        exact h.mineLt i hi
      · intro p i hp hi
        obtain ⟨hp', hpn⟩ := knode p i hp
        obtain ⟨x, hx, q1, q2, q3, q4⟩ := h.hold p i hp' hi
        obtain ⟨j, hj⟩ := List.getElem?_of_mem hx
        by_cases hjk : j = k
        · subst hjk
          rw [hb] at hj
          cases hj
          rcases hpn with hpn | hpn
          · -- an open bus without a name holds no path
            exfalso
            have : p = [] := by rw [← q3, hpn]
            exact q4 this
          · exact absurd q3.symm hpn
        · refine ⟨x, ?_, q1, q2, q3, q4⟩
          have : (s.busses.set k (closeBus s.w b).2)[j]? = some x := by
            rw [List.getElem?_set_ne (fun h => hjk h.symm)]; exact hj
          exact List.mem_of_getElem? this
      · intro x hx hxn
        show W.locked x.name = false
        rw [r3]
        rcases kset x hx with hx | rfl
        · exact h.names x hx hxn
        · exact absurd rfl hxn
      · intro x hx
        rcases kset x hx with hx | rfl
        · exact h.mineBus x hx
        · exact h.mineBus b hbm
      · intro i hi hm
        obtain ⟨q5, q6⟩ := r4 i hi
        obtain ⟨x, hx, q1, q2⟩ := h.fds i q5 hm
        obtain ⟨j, hj⟩ := List.getElem?_of_mem hx
        by_cases hjk : j = k
        · subst hjk
          rw [hb] at hj
          cases hj
          exact absurd q2.symm (q6 q1)
        · refine ⟨x, ?_, q1, q2⟩
          have : (s.busses.set k (closeBus s.w b).2)[j]? = some x := by
            rw [List.getElem?_set_ne (fun h => hjk h.symm)]; exact hj
          exact List.mem_of_getElem? this
  | outside o =>
    dsimp only [makes]
    rw [List.append_nil]
    cases o with
    | put p d =>
      unfold step outside
      dsimp only
      split
      · exact h
      · have key : ∀ q i, (if q = p then some (if d = true then Node.dir else Node.file) else s.w.node q) = some (.sock i) → s.w.node q = some (.sock i) := by
          intro q i hq
          split at hq
          · cases d <;> cases hq
          · exact hq
        exact ⟨fun q i hq => h.nodes q i (key q i hq), h.abs, h.live, h.mineLt, fun q i hq hi => h.hold q i (key q i hq) hi, h.names, h.mineBus, h.fds⟩
    | remove p =>
      unfold step outside
      dsimp only
      have key : ∀ q i, (if q = p then none else s.w.node q) = some (.sock i) → s.w.node q = some (.sock i) := by
        intro q i hq
        split at hq
        · cases hq
        · exact hq
      exact ⟨fun q i hq => h.nodes q i (key q i hq), h.abs, h.live, h.mineLt, fun q i hq hi => h.hold q i (key q i hq) hi, h.names, h.mineBus, h.fds⟩
    | die id =>
      unfold step outside
      dsimp only
      split
      · exact h
      · have old : ∀ i, (close s.w id).live i = true → s.w.live i = true := by
          intro i hi
          have hi : (if i = id then false else s.w.live i) = true := hi
          split at hi
          · cases hi
          · exact hi
        exact ⟨h.nodes, h.abs, fun i hi => h.live i (old i hi), h.mineLt, h.hold, h.names, h.mineBus, fun i hi hm => h.fds i (old i hi) hm⟩
    | listen a =>
      unfold step outside
      dsimp only
      generalize hW : (bind (socket s.w).2 (socket s.w).1 a).2 = W
      have hcase : W = (socket s.w).2 ∨ W = bound (socket s.w).2 s.w.next a := by
        rw [← hW]
        cases a with
        | path p =>
          rw [bind_path]
          split
          · exact Or.inl rfl
          · split
            · exact Or.inl rfl
            · exact Or.inr rfl
        | abs n =>
          by_cases hl : ∃ i, Listens (socket s.w).2 (.abs n) i
          · obtain ⟨i, hi⟩ := hl
            rw [bind_abs_taken hi]
            exact Or.inl rfl
          · rw [bind_abs_free hl]
            exact Or.inr rfl
      have kn : W.next = s.w.next + 1 := by rcases hcase with rfl | rfl; rfl; cases a <;> rfl
      have kl : W.locked = s.w.locked := by rcases hcase with rfl | rfl; rfl; cases a <;> rfl
      have kv : W.live = (socket s.w).2.live := by rcases hcase with rfl | rfl; rfl; cases a <;> rfl
      have knode : ∀ p j, W.node p = some (.sock j) → j = s.w.next ∨ s.w.node p = some (.sock j) := by
        intro p j hp
        rcases hcase with rfl | rfl
        · exact Or.inr hp
        · cases a with
          | path q =>
            have hp : (if p = q then some (Node.sock s.w.next) else s.w.node p) = some (.sock j) := hp
            split at hp
            · cases hp; exact Or.inl rfl
            · exact Or.inr hp
          | abs n => exact Or.inr hp
      refine ⟨?_, ?_, ?_, ?_, ?_, ?_, h.mineBus, ?_⟩
      · intro p j hp
        show j < W.next
        rw [kn]
        rcases knode p j hp with h' | h'
        · omega
        · have := h.nodes p j h'; omega
      · intro n i hp
        show i < W.next
        rw [kn]
        have hp : W.abs n = some i := hp
        rcases hcase with rfl | rfl
        · have := h.abs n i hp; omega
        · cases a with
          | path q => have := h.abs n i hp; omega
          | abs q =>
            have hp : (if n = q then some s.w.next else s.w.abs n) = some i := hp
            split at hp
            · cases hp; omega
            · have := h.abs n i hp; omega
      · intro i hi
        show i < W.next
        rw [kn]
        have hi : W.live i = true := hi
        rw [kv] at hi
        have hi' : (if i = s.w.next then true else s.w.live i) = true := hi
        split at hi'
        · omega
        · have := h.live i hi'; omega
      · intro i hi
        show i < W.next
        rw [kn]
        have := h.mineLt i hi
        omega
      · intro p j hp hj
        rcases knode p j hp with rfl | h'
        · have := h.mineLt _ hj; omega
        · exact h.hold p j h' hj
      · intro b hb hbn
        show W.locked b.name = false
        rw [kl]
        exact h.names b hb hbn
      · intro i hi hm
        have hi : W.live i = true := hi
        rw [kv] at hi
        have hi' : (if i = s.w.next then true else s.w.live i) = true := hi
        have := h.mineLt i hm
        rw [if_neg (by omega)] at hi'
        exact h.fds i hi' hm

theorem inv_run (ops : List Op) : ∀ {s : Proc} {mine : List Nat}, Inv s mine → Inv (run s ops) (mine ++ made s ops) := by
  induction ops with
  | nil => intro s mine h; rw [show made s [] = [] from rfl, List.append_nil]; exact h
  | cons o t ih =>
    intro s mine h
    rw [made_cons, ← List.append_assoc]
    exact ih (inv_step h o)

theorem pid_step (s : Proc) (o : Op) : (step s o).2.pid = s.pid := by
  cases o with
  | «open» p n => rfl
  | create p n => rfl
  | close k => unfold step; dsimp only; split <;> rfl
  | outside o =>
    cases o with
    | put p d => unfold step outside; dsimp only; split <;> rfl
    | remove p => rfl
    | listen a => rfl
    | die id => unfold step outside; dsimp only; split <;> rfl

theorem pid_run (ops : List Op) : ∀ s : Proc, (run s ops).pid = s.pid := by
  induction ops with
  | nil => intro s; rfl
  | cons o t ih => intro s; exact (ih _).trans (pid_step s o)

/-- The open clients have names numbered up to the counter, and no two the same. -/
structure Named (s : Proc) : Prop where
  pid : s.pid < 2147483648
  numbered : ∀ b ∈ s.busses, b.server = false → b.isOpen = true → ∃ c, c ≤ s.counter ∧ b.name = full s.pid c
  apart : ∀ (i j : Nat) (b c : Bus), i < j → s.busses[i]? = some b → s.busses[j]? = some c → b.server = false → c.server = false → b.isOpen = true → c.isOpen = true → b.name ≠ c.name

theorem named_append {s : Proc} (h : Named s) (w : World) (counter : Nat) (hc : s.counter ≤ counter) (x : Bus)
    (hx : x.server = true ∨ (s.counter < counter ∧ x.name = full s.pid counter)) : Named { s with w := w, counter := counter, busses := s.busses ++ [x] } := by
  refine ⟨h.pid, ?_, ?_⟩
  · intro b hb h1 h2
    rcases List.mem_append.mp hb with hb | hb
    · obtain ⟨c, h3, h4⟩ := h.numbered b hb h1 h2
      exact ⟨c, Nat.le_trans h3 hc, h4⟩
    · rw [List.mem_singleton.mp hb] at h1 ⊢
      rcases hx with hx | ⟨_, hx⟩
      · rw [hx] at h1; cases h1
      · exact ⟨counter, Nat.le_refl _, hx⟩
  · intro i j b c hij hi hj h1 h2 h3 h4
    have hi : (s.busses ++ [x])[i]? = some b := hi
    have hj : (s.busses ++ [x])[j]? = some c := hj
    have hjl : j < s.busses.length + 1 := by
      have := (List.getElem?_eq_some_iff.mp hj).1
      simpa using this
    have hi' : s.busses[i]? = some b := by rw [List.getElem?_append_left (by omega)] at hi; exact hi
    by_cases hjn : j = s.busses.length
    · subst hjn
      rw [List.getElem?_append_right (Nat.le_refl _), Nat.sub_self] at hj
      cases hj
      rcases hx with hx | ⟨hlt, hx⟩
      · rw [hx] at h2; cases h2
      · obtain ⟨c, h5, h6⟩ := h.numbered b (List.mem_of_getElem? hi') h1 h3
        rw [hx, h6]
        intro he
        have := full_inj _ _ _ he
        omega
    · rw [List.getElem?_append_left (by omega)] at hj
      exact h.apart i j b c hij hi' hj h1 h2 h3 h4

theorem named_same {s : Proc} (h : Named s) (w : World) (counter : Nat) (hc : s.counter ≤ counter) : Named { s with w := w, counter := counter } :=
  ⟨h.pid, fun b hb h1 h2 => by obtain ⟨c, h3, h4⟩ := h.numbered b hb h1 h2; exact ⟨c, Nat.le_trans h3 hc, h4⟩, h.apart⟩

/-- The number a step takes. -/
def counts : Op → Nat
  | .open _ _ => 1
  | _ => 0

theorem named_step {s : Proc} (h : Named s) (o : Op) (hc : s.counter + counts o < W64) :
    Named (step s o).2 ∧ (step s o).2.counter ≤ s.counter + counts o := by
  cases o with
  | «open» path nofd =>
    have hc : s.counter + 1 < W64 := hc
    unfold step
    dsimp only
    rw [Nat.mod_eq_of_lt hc, clientName_full _ _ h.pid hc]
    rcases newClient_effect s.w (full s.pid (s.counter + 1)) path nofd with ⟨rfl, e⟩ | ⟨rfl, e, n, _, hn, hr⟩ | ⟨rfl, h1, h2, i, hr⟩
    · rw [e]
      dsimp only [Option.toList]
      rw [List.append_nil]
      exact ⟨named_same h _ _ (Nat.le_refl _), Nat.le_succ _⟩
    · rw [hr]
      dsimp only [Option.toList]
      rw [List.append_nil]
      exact ⟨named_same h _ _ (Nat.le_succ _), Nat.le_refl _⟩
    · rw [hr]
      exact ⟨named_append h _ _ (Nat.le_succ _) _ (Or.inr ⟨Nat.lt_succ_self _, rfl⟩), Nat.le_refl _⟩
  | create path nofd =>
    unfold step
    dsimp only
    rcases newServer_effect s.w path nofd with ⟨rfl, e⟩ | ⟨rfl, e, _, hr⟩ | ⟨rfl, a, b, ha, ht, hr⟩
    · rw [e]
      dsimp only [Option.toList]
      rw [List.append_nil]
      exact ⟨named_same h _ _ (Nat.le_refl _), Nat.le_refl _⟩
    · rw [hr]
      dsimp only [Option.toList]
      rw [List.append_nil]
      exact ⟨named_same h _ _ (Nat.le_refl _), Nat.le_refl _⟩
    · rw [hr]
      exact ⟨named_append h _ _ (Nat.le_refl _) _ (Or.inl rfl), Nat.le_refl _⟩
  | close k =>
    unfold step
    dsimp only
    split
    · exact ⟨h, Nat.le_refl _⟩
    · rename_i b hb
      refine ⟨⟨h.pid, ?_, ?_⟩, Nat.le_refl _⟩
      · intro x hx h1 h2
        rcases List.mem_or_eq_of_mem_set hx with hx | rfl
        · exact h.numbered x hx h1 h2
        · cases h2
      · intro i j x y hij hi hj h1 h2 h3 h4
        have old : ∀ (l : Nat) (z : Bus), (s.busses.set k (closeBus s.w b).2)[l]? = some z → z.isOpen = true → s.busses[l]? = some z := by
          intro l z hl hz
          by_cases hlk : k = l
          · subst hlk
            rw [List.getElem?_set_self (List.getElem?_eq_some_iff.mp hb).1] at hl
            cases hl
            cases hz
          · rw [List.getElem?_set_ne hlk] at hl; exact hl
        exact h.apart i j x y hij (old i x hi h3) (old j y hj h4) h1 h2 h3 h4
  | outside o =>
    cases o with
    | put p d =>
      unfold step outside
      dsimp only
      split
      · exact ⟨h, Nat.le_refl _⟩
      · exact ⟨named_same h _ _ (Nat.le_refl _), Nat.le_refl _⟩
    | remove p => exact ⟨named_same h _ _ (Nat.le_refl _), Nat.le_refl _⟩
    | listen a => exact ⟨named_same h _ _ (Nat.le_refl _), Nat.le_refl _⟩
    | die id =>
      unfold step outside
      dsimp only
      split
      · exact ⟨h, Nat.le_refl _⟩
      · exact ⟨named_same h _ _ (Nat.le_refl _), Nat.le_refl _⟩

theorem opens_cons (o : Op) (t : List Op) : opens (o :: t) = opens t + counts o := by
  cases o <;> rfl

theorem named_run (ops : List Op) : ∀ {s : Proc}, Named s → s.counter + opens ops < W64 → Named (run s ops) ∧ (run s ops).counter ≤ s.counter + opens ops := by
  induction ops with
  | nil => intro s h _; exact ⟨h, Nat.le_refl _⟩
  | cons o t ih =>
    intro s h hc
    rw [opens_cons] at hc ⊢
    obtain ⟨h1, h2⟩ := named_step h o (by omega)
    obtain ⟨h3, h4⟩ := ih h1 (by omega)
    exact ⟨h3, by show (run (step s o).2 t).counter ≤ _; omega⟩

theorem fresh_named {s : Proc} (h : Fresh s) : Named s :=
  ⟨h.pid, by rw [h.busses]; simp, by intro i j b c _ hi; rw [h.busses] at hi; simp at hi⟩

theorem nameOf_served {path : List Byte} {a : Addr} {b : Bool} (h : addrOf path = some (a, b)) : nameOf a = [] ∨ nameOf a = path := by
  cases a with
  | path p => exact Or.inr ((addrOf_path h).2 p rfl).1
  | abs n => exact Or.inl rfl

theorem unlink_other (w : World) (p q : List Byte) (h : q ≠ p) : (unlink w p).node q = w.node q := by
  unfold unlink
  split
  · rfl
  · exact if_neg h

/-- Paths that are no name of the process and not served are left alone. -/
theorem untouched_run (q : List Byte) (hq : q ≠ []) (ops : List Op) : ∀ s : Proc, s.pid < 2147483648 → ¬ Own s.pid q → (∀ b ∈ s.busses, b.name ≠ q) →
    Alone ops → q ∉ served ops → (run s ops).w.node q = s.w.node q := by
  induction ops with
  | nil => intro s _ _ _ _ _; rfl
  | cons o t ih =>
    intro s hpid hown hb ha hs
    have ha' : Alone t := fun x hx => ha x (List.mem_cons_of_mem _ hx)
    have hs' : q ∉ served t := by
      intro hm
      apply hs
      cases o <;> simp [served, hm]
    have key : (step s o).2.w.node q = s.w.node q ∧ ∀ b ∈ (step s o).2.busses, b.name ≠ q := by
      cases o with
      | «open» path nofd =>
        unfold step
        dsimp only
        have hlt : (s.counter + 1) % W64 < W64 := Nat.mod_lt _ (by decide)
        rw [clientName_full _ _ hpid hlt]
        have hne : q ≠ full s.pid ((s.counter + 1) % W64) := fun h => hown ⟨_, h⟩
        rcases newClient_effect s.w (full s.pid ((s.counter + 1) % W64)) path nofd with ⟨rfl, e⟩ | ⟨rfl, e, n, _, hn, hr⟩ | ⟨rfl, h1, h2, i, hr⟩
        · rw [e]
          dsimp only [Option.toList]
          rw [List.append_nil]
          exact ⟨rfl, hb⟩
        · rw [hr]
          dsimp only [Option.toList]
          rw [List.append_nil]
          exact ⟨if_neg hne, hb⟩
        · rw [hr]
          refine ⟨if_neg hne, ?_⟩
          intro b hb'
          rcases List.mem_append.mp hb' with hb' | hb'
          · exact hb b hb'
          · rw [List.mem_singleton.mp hb']
            exact fun h => hne h.symm
      | create path nofd =>
        have hpq : q ≠ path := fun h => hs (by rw [h]; exact List.mem_cons_self)
        unfold step
        dsimp only
        rcases newServer_effect s.w path nofd with ⟨rfl, e⟩ | ⟨rfl, e, _, hr⟩ | ⟨rfl, a, b, hA, ht, hr⟩
        · rw [e]
          dsimp only [Option.toList]
          rw [List.append_nil]
          exact ⟨rfl, hb⟩
        · rw [hr]
          dsimp only [Option.toList]
          rw [List.append_nil]
          exact ⟨rfl, hb⟩
        · rw [hr]
          refine ⟨?_, ?_⟩
          · cases a with
            | path p =>
              have := ((addrOf_path hA).2 p rfl).1
              subst this
              exact if_neg hpq
            | abs n => rfl
          · intro x hx
            rcases List.mem_append.mp hx with hx | hx
            · exact hb x hx
            · rw [List.mem_singleton.mp hx]
              show nameOf a ≠ q
              rcases nameOf_served hA with h | h
              · rw [h]; exact fun h => hq h.symm
              · rw [h]; exact fun h => hpq h.symm
      | close k =>
        unfold step
        dsimp only
        split
        · exact ⟨rfl, hb⟩
        · rename_i b hk
          have hbq := hb b (List.mem_of_getElem? hk)
          refine ⟨?_, ?_⟩
          · show (closeBus s.w b).1.node q = s.w.node q
            unfold closeBus
            dsimp only
            split
            · rw [unlink_other _ _ _ (fun h => hbq h.symm)]
              split <;> rfl
            · split <;> rfl
          · intro x hx
            rcases List.mem_or_eq_of_mem_set hx with hx | rfl
            · exact hb x hx
            · exact fun h => hq h.symm
      | outside x => exact absurd rfl (ha _ List.mem_cons_self x)
    show (run (step s o).2 t).w.node q = _
    rw [ih _ (by rw [pid_step]; exact hpid) (by rw [pid_step]; exact hown) key.2 ha' hs', key.1]

end Verif.Sockets
