import Verif.Model.Mirror
/-! # What the functions of the program and the changes of the lists keep true is kept by all messages -/
namespace Verif.Mirror
open Verif.C

/-- All functions of the program, and all changes of the lists except those of the properties of links, keep `P`. -/
structure HoldsCore {σ : Type} (H : Hooks σ) (P : W σ → Prop) : Prop where
  peerNew : ∀ p w w', H.peerNew p w = some w' → P w → P w'
  peerFree : ∀ p w w', H.peerFree p w = some w' → P w → P w'
  connected : ∀ p w w', H.connected p w = some w' → P w → P w'
  disconnected : ∀ p w w', H.disconnected p w = some w' → P w → P w'
  linkNew : ∀ p w w', H.linkNew p w = some w' → P w → P w'
  linkFree : ∀ p w w', H.linkFree p w = some w' → P w → P w'
  prov : ∀ p a b w w', H.prov p a b w = some w' → P w → P w'
  goNeg : ∀ p a b w w', H.goNeg p a b w = some w' → P w → P w'
  failure : ∀ p a w w', H.failure p a w = some w' → P w → P w'
  putPeer : ∀ p w, P w → P (w.putPeer p)
  addPeer : ∀ p w, P w → P (w.addPeer p)
  delPeer : ∀ i w, P w → P (w.delPeer i)
  delLink : ∀ i w, P w → P (w.delLink i)
  addLink : ∀ l w, l.id = w.next → l.haveScan = false → P w → P { w with links := w.links ++ [l], next := w.next + 1 }
  bump : ∀ w, P w → P { w with next := w.next + 1 }

/-- The same, with the properties of links. -/
structure Holds {σ : Type} (H : Hooks σ) (P : W σ → Prop) : Prop extends HoldsCore H P where
  putLink : ∀ l u w, l ∈ w.links → P w → P (w.putLink (LinkUpd.apply u l))

variable {σ : Type} {H : Hooks σ} {P : W σ → Prop}

theorem HoldsCore.free (h : HoldsCore H P) {p : Peer} {w w' : W σ} (e : Mirror.peerFree H p w = some w') (hp : P w) : P w' := by
  unfold Mirror.peerFree at e
  simp only [Option.bind_eq_bind, Option.bind_eq_some_iff, Option.some.injEq] at e
  obtain ⟨w1, h1, rfl⟩ := e
  exact h.delPeer _ _ (h.peerFree p w w1 h1 hp)

theorem HoldsCore.freePeers (h : HoldsCore H P) (ps : List Peer) {w w' : W σ} (e : freePeers H ps w = some w') (hp : P w) : P w' := by
  induction ps generalizing w with
  | nil => rw [Mirror.freePeers] at e; injection e with e; rw [← e]; exact hp
  | cons p ps ih =>
    rw [Mirror.freePeers] at e
    simp only [Option.bind_eq_bind, Option.bind_eq_some_iff] at e
    obtain ⟨w1, h1, h2⟩ := e
    exact ih h2 (h.free h1 hp)

theorem HoldsCore.freeLink (h : HoldsCore H P) {l : Link} {w w' : W σ} (e : Mirror.linkFree H l w = some w') (hp : P w) : P w' := by
  unfold Mirror.linkFree at e
  simp only [Option.bind_eq_bind, Option.bind_eq_some_iff, Option.some.injEq] at e
  obtain ⟨w1, h1, w2, h2, rfl⟩ := e
  exact h.delLink _ _ (h.linkFree l w1 w2 h2 (h.freePeers _ h1 hp))

theorem HoldsCore.freeLinks (h : HoldsCore H P) (ls : List Link) {w w' : W σ} (e : freeLinks H ls w = some w') (hp : P w) : P w' := by
  induction ls generalizing w with
  | nil => rw [Mirror.freeLinks] at e; injection e with e; rw [← e]; exact hp
  | cons p ps ih =>
    rw [Mirror.freeLinks] at e
    simp only [Option.bind_eq_bind, Option.bind_eq_some_iff] at e
    obtain ⟨w1, h1, h2⟩ := e
    exact ih h2 (h.freeLink h1 hp)

theorem HoldsCore.props (h : HoldsCore H P) {p p' : Peer} {ps : Props} {r : Int} {w w' : W σ} (e : peerProps H p ps w = some (r, p', w')) (hp : P w) :
    P w' := by
  unfold peerProps at e
  split at e
  · simp only [Option.some.injEq, Prod.mk.injEq] at e
    rw [← e.2.2]; exact hp
  · split at e
    · simp only [Option.some.injEq, Prod.mk.injEq] at e
      rw [← e.2.2]; exact h.putPeer _ _ hp
    · split at e
      · simp only [Option.some.injEq, Prod.mk.injEq] at e
        rw [← e.2.2]; exact h.putPeer _ _ hp
      · simp only [Option.bind_eq_bind, Option.bind_eq_some_iff, Option.some.injEq, Prod.mk.injEq] at e
        obtain ⟨w1, h1, -, -, rfl⟩ := e
        split at h1
        · exact h.connected _ _ _ h1 (h.putPeer _ _ hp)
        · exact h.disconnected _ _ _ h1 (h.putPeer _ _ hp)

theorem HoldsCore.ifs (h : HoldsCore H P) (i : Ifaces) {p : Peer} {o : Option Peer} {w w' : W σ} (e : peerIfs H i p w = some (o, w')) (hp : P w) : P w' := by
  induction i generalizing p w with
  | nil =>
    rw [peerIfs] at e
    simp only [Option.some.injEq, Prod.mk.injEq] at e
    rw [← e.2]; exact hp
  | cons q r ih =>
    obtain ⟨t, ps⟩ := q
    rw [peerIfs] at e
    split at e
    · exact ih e hp
    · simp only [Option.bind_eq_bind, Option.bind_eq_some_iff, Prod.exists] at e
      obtain ⟨c, p1, w1, h1, h2⟩ := e
      split at h2
      · simp only [Option.some.injEq, Prod.mk.injEq] at h2
        rw [← h2.2]; exact h.props h1 hp
      · exact ih h2 (h.props h1 hp)

theorem linkIfs_same (i : Ifaces) {l l' : Link} (e : linkIfs i l = some l') : l'.id = l.id ∧ l'.haveScan = l.haveScan := by
  induction i generalizing l with
  | nil => rw [linkIfs] at e; injection e with e; subst e; exact ⟨rfl, rfl⟩
  | cons q r ih =>
    obtain ⟨t, ps⟩ := q
    rw [linkIfs] at e
    split at e
    · exact ih e
    · obtain ⟨l1, h1, h2⟩ := Option.bind_eq_some_iff.mp e
      unfold linkProps at h1
      obtain ⟨u, -, rfl⟩ := Option.map_eq_some_iff.mp h1
      obtain ⟨a, b⟩ := ih h2
      exact ⟨a, b⟩

theorem findLink_mem {w : W σ} {n : List Byte} {l : Link} (e : w.findLink n = some l) : l ∈ w.links := by
  unfold W.findLink at e
  split at e
  · cases e
  · exact List.mem_of_find?_eq_some e

theorem HoldsCore.object (h : HoldsCore H P) {path : List Byte} {o : Option Ifaces} {r : Int} {b : Bool} {w w' : W σ}
    (e : parseObject H path o w = some (r, b, w')) (hp : P w) : P w' := by
  unfold parseObject at e
  split at e
  · split at e
    · simp only [Option.bind_eq_bind, Option.bind_eq_some_iff, Prod.exists, Option.some.injEq, Prod.mk.injEq] at e
      obtain ⟨c, w1, h1, -, -, rfl⟩ := e
      unfold parseLink at h1
      split at h1
      · simp only [Option.some.injEq, Prod.mk.injEq] at h1
        rw [← h1.2]; exact h.bump _ hp
      · rename_i l hl
        simp only [Option.bind_eq_bind, Option.bind_eq_some_iff, Option.some.injEq, Prod.mk.injEq] at h1
        obtain ⟨w2, h2, -, rfl⟩ := h1
        exact h.linkNew _ _ _ h2 (h.addLink _ _ (linkIfs_same _ hl).1 (linkIfs_same _ hl).2 hp)
    · simp only [Option.bind_eq_bind, Option.bind_eq_some_iff, Option.some.injEq, Prod.mk.injEq] at e
      obtain ⟨w1, h1, -, -, rfl⟩ := e
      exact h.freeLink h1 hp
    · simp only [Option.some.injEq, Prod.mk.injEq] at e
      rw [← e.2.2]; exact hp
  · split at e
    · split at e
      · unfold parsePeer at e
        split at e
        · simp only [Option.some.injEq, Prod.mk.injEq] at e
          rw [← e.2.2]; exact hp
        · simp only [Option.bind_eq_bind, Option.bind_eq_some_iff, Prod.exists] at e
          obtain ⟨o, w1, h1, h2⟩ := e
          have hP := h.ifs _ h1 (h.bump _ hp)
          split at h2
          · simp only [Option.some.injEq, Prod.mk.injEq] at h2
            rw [← h2.2.2]; exact hP
          · simp only [Option.bind_eq_some_iff, Option.some.injEq, Prod.mk.injEq] at h2
            obtain ⟨w2, h2, -, -, rfl⟩ := h2
            exact h.peerNew _ _ _ h2 (h.addPeer _ _ hP)
      · simp only [Option.bind_eq_bind, Option.bind_eq_some_iff, Option.some.injEq, Prod.mk.injEq] at e
        obtain ⟨w1, h1, -, -, rfl⟩ := e
        exact h.free h1 hp
      · simp only [Option.some.injEq, Prod.mk.injEq] at e
        rw [← e.2.2]; exact hp
    · simp only [Option.some.injEq, Prod.mk.injEq] at e
      rw [← e.2.2]; exact hp

theorem HoldsCore.fetch (h : HoldsCore H P) (l : List (List Byte × Ifaces)) {r : Int} {w w' : W σ} (e : fetch H l w = some (r, w')) (hp : P w) : P w' := by
  induction l generalizing w with
  | nil =>
    rw [Mirror.fetch] at e
    simp only [Option.some.injEq, Prod.mk.injEq] at e
    rw [← e.2]; exact hp
  | cons q l ih =>
    obtain ⟨path, i⟩ := q
    rw [Mirror.fetch] at e
    simp only [Option.bind_eq_bind, Option.bind_eq_some_iff, Prod.exists] at e
    obtain ⟨c, b, w1, h1, h2⟩ := e
    have hP := h.object h1 hp
    split at h2
    · simp only [Option.some.injEq, Prod.mk.injEq] at h2
      rw [← h2.2]; exact hP
    · split at h2
      · simp only [Option.some.injEq, Prod.mk.injEq] at h2
        rw [← h2.2]; exact hP
      · exact ih h2 hP

/-- What all functions of the program keep is kept by every message. -/
theorem HoldsCore.receive (h : HoldsCore H P) {m : Msg} {r : Int} {w w' : W σ} (hl : ∀ l u, l ∈ w.links → P (w.putLink (LinkUpd.apply u l)))
    (e : receive H w m = some (r, w')) (hp : P w) : P w' := by
  cases m with
  | added path i =>
    simp only [Mirror.receive, Option.bind_eq_bind, Option.bind_eq_some_iff, Prod.exists, Option.some.injEq, Prod.mk.injEq] at e
    obtain ⟨c, b, w1, h1, -, rfl⟩ := e
    exact h.object h1 hp
  | removed path =>
    simp only [Mirror.receive, Option.bind_eq_bind, Option.bind_eq_some_iff, Prod.exists, Option.some.injEq, Prod.mk.injEq] at e
    obtain ⟨c, b, w1, h1, -, rfl⟩ := e
    exact h.object h1 hp
  | changed path iface ps =>
    simp only [Mirror.receive] at e
    split at e
    · split at e
      · simp only [Option.some.injEq, Prod.mk.injEq] at e
        rw [← e.2]; exact hp
      · split at e
        · simp only [Option.some.injEq, Prod.mk.injEq] at e
          rw [← e.2]; exact hp
        · split at e
          · simp only [Option.some.injEq, Prod.mk.injEq] at e
            rw [← e.2]; exact hp
          · rename_i hf _ _ _ hl2
            simp only [Option.some.injEq, Prod.mk.injEq] at e
            rw [← e.2]
            unfold linkProps at hl2
            obtain ⟨u, -, rfl⟩ := Option.map_eq_some_iff.mp hl2
            exact hl _ _ (findLink_mem hf)
    · split at e
      · simp only [Option.some.injEq, Prod.mk.injEq] at e
        rw [← e.2]; exact hp
      · split at e
        · simp only [Option.some.injEq, Prod.mk.injEq] at e
          rw [← e.2]; exact hp
        · simp only [Option.bind_eq_bind, Option.bind_eq_some_iff, Prod.exists, Option.some.injEq, Prod.mk.injEq] at e
          obtain ⟨c, b, w1, h1, -, rfl⟩ := e
          exact h.props h1 hp
  | prov path a b =>
    simp only [Mirror.receive] at e
    split at e
    · simp only [Option.some.injEq, Prod.mk.injEq] at e
      rw [← e.2]; exact hp
    · simp only [Option.bind_eq_bind, Option.bind_eq_some_iff, Option.some.injEq, Prod.mk.injEq] at e
      obtain ⟨w1, h1, -, rfl⟩ := e
      exact h.prov _ _ _ _ _ h1 hp
  | goNeg path a b =>
    simp only [Mirror.receive] at e
    split at e
    · simp only [Option.some.injEq, Prod.mk.injEq] at e
      rw [← e.2]; exact hp
    · simp only [Option.bind_eq_bind, Option.bind_eq_some_iff, Option.some.injEq, Prod.mk.injEq] at e
      obtain ⟨w1, h1, -, rfl⟩ := e
      exact h.goNeg _ _ _ _ _ h1 hp
  | failure path a =>
    simp only [Mirror.receive] at e
    split at e
    · simp only [Option.some.injEq, Prod.mk.injEq] at e
      rw [← e.2]; exact hp
    · simp only [Option.bind_eq_bind, Option.bind_eq_some_iff, Option.some.injEq, Prod.mk.injEq] at e
      obtain ⟨w1, h1, -, rfl⟩ := e
      exact h.failure _ _ _ _ h1 hp
  | objects l => exact h.fetch l e hp

theorem Holds.receive (h : Holds H P) {m : Msg} {r : Int} {w w' : W σ} (e : receive H w m = some (r, w')) (hp : P w) : P w' :=
  h.toHoldsCore.receive (fun l u hl => h.putLink l u w hl hp) e hp

end Verif.Mirror
