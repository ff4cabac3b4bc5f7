import Verif.Model.Mirror
/-! # What the functions of the program keep true of its state is kept by all messages -/
namespace Verif.Mirror
open Verif.C

/-- All functions of the program keep `P`. -/
structure HoldsApp {σ : Type} (H : Hooks σ) (P : σ → Prop) : Prop where
  peerNew : ∀ p w w', H.peerNew p w = some w' → P w.app → P w'.app
  peerFree : ∀ p w w', H.peerFree p w = some w' → P w.app → P w'.app
  connected : ∀ p w w', H.connected p w = some w' → P w.app → P w'.app
  disconnected : ∀ p w w', H.disconnected p w = some w' → P w.app → P w'.app
  linkNew : ∀ p w w', H.linkNew p w = some w' → P w.app → P w'.app
  linkFree : ∀ p w w', H.linkFree p w = some w' → P w.app → P w'.app
  prov : ∀ p a b w w', H.prov p a b w = some w' → P w.app → P w'.app
  goNeg : ∀ p a b w w', H.goNeg p a b w = some w' → P w.app → P w'.app
  failure : ∀ p a w w', H.failure p a w = some w' → P w.app → P w'.app

variable {σ : Type} {H : Hooks σ} {P : σ → Prop}

theorem HoldsApp.free (h : HoldsApp H P) {p : Peer} {w w' : W σ} (e : Mirror.peerFree H p w = some w') (hp : P w.app) : P w'.app := by
  unfold Mirror.peerFree at e
  simp only [Option.bind_eq_bind, Option.bind_eq_some_iff, Option.some.injEq] at e
  obtain ⟨w1, h1, rfl⟩ := e
  exact h.peerFree p w w1 h1 hp

theorem HoldsApp.freePeers (h : HoldsApp H P) (ps : List Peer) {w w' : W σ} (e : freePeers H ps w = some w') (hp : P w.app) : P w'.app := by
  induction ps generalizing w with
  | nil => rw [Mirror.freePeers] at e; injection e with e; rw [← e]; exact hp
  | cons p ps ih =>
    rw [Mirror.freePeers] at e
    simp only [Option.bind_eq_bind, Option.bind_eq_some_iff] at e
    obtain ⟨w1, h1, h2⟩ := e
    exact ih h2 (h.free h1 hp)

theorem HoldsApp.freeLink (h : HoldsApp H P) {l : Link} {w w' : W σ} (e : Mirror.linkFree H l w = some w') (hp : P w.app) : P w'.app := by
  unfold Mirror.linkFree at e
  simp only [Option.bind_eq_bind, Option.bind_eq_some_iff, Option.some.injEq] at e
  obtain ⟨w1, h1, w2, h2, rfl⟩ := e
  exact h.linkFree l w1 w2 h2 (h.freePeers _ h1 hp)

theorem HoldsApp.freeLinks (h : HoldsApp H P) (ls : List Link) {w w' : W σ} (e : freeLinks H ls w = some w') (hp : P w.app) : P w'.app := by
  induction ls generalizing w with
  | nil => rw [Mirror.freeLinks] at e; injection e with e; rw [← e]; exact hp
  | cons p ps ih =>
    rw [Mirror.freeLinks] at e
    simp only [Option.bind_eq_bind, Option.bind_eq_some_iff] at e
    obtain ⟨w1, h1, h2⟩ := e
    exact ih h2 (h.freeLink h1 hp)

theorem HoldsApp.props (h : HoldsApp H P) {p p' : Peer} {ps : Props} {r : Int} {w w' : W σ} (e : peerProps H p ps w = some (r, p', w')) (hp : P w.app) :
    P w'.app := by
  unfold peerProps at e
  split at e
  · simp only [Option.some.injEq, Prod.mk.injEq] at e
    rw [← e.2.2]; exact hp
  · split at e
    · simp only [Option.some.injEq, Prod.mk.injEq] at e
      rw [← e.2.2]; exact hp
    · split at e
      · simp only [Option.some.injEq, Prod.mk.injEq] at e
        rw [← e.2.2]; exact hp
      · simp only [Option.bind_eq_bind, Option.bind_eq_some_iff, Option.some.injEq, Prod.mk.injEq] at e
        obtain ⟨w1, h1, -, -, rfl⟩ := e
        split at h1
        · exact h.connected _ _ _ h1 hp
        · exact h.disconnected _ _ _ h1 hp

theorem HoldsApp.ifs (h : HoldsApp H P) (i : Ifaces) {p : Peer} {o : Option Peer} {w w' : W σ} (e : peerIfs H i p w = some (o, w')) (hp : P w.app) : P w'.app := by
  induction i generalizing p w with
  | nil =>
    rw [peerIfs] at e
    simp only [Option.some.injEq, Prod.mk.injEq] at e
    rw [← e.2]; exact hp
  | cons q r ih =>
    obtain ⟨t, ps⟩ := q
    rw [peerIfs] at e
    split at e
    · exact ih e hp
    · simp only [Option.bind_eq_bind, Option.bind_eq_some_iff, Prod.exists] at e
      obtain ⟨c, p1, w1, h1, h2⟩ := e
      split at h2
      · simp only [Option.some.injEq, Prod.mk.injEq] at h2
        rw [← h2.2]; exact h.props h1 hp
      · exact ih h2 (h.props h1 hp)

theorem HoldsApp.object (h : HoldsApp H P) {path : List Byte} {o : Option Ifaces} {r : Int} {b : Bool} {w w' : W σ}
    (e : parseObject H path o w = some (r, b, w')) (hp : P w.app) : P w'.app := by
  unfold parseObject at e
  split at e
  · split at e
    · simp only [Option.bind_eq_bind, Option.bind_eq_some_iff, Prod.exists, Option.some.injEq, Prod.mk.injEq] at e
      obtain ⟨c, w1, h1, -, -, rfl⟩ := e
      unfold parseLink at h1
      split at h1
      · simp only [Option.some.injEq, Prod.mk.injEq] at h1
        rw [← h1.2]; exact hp
      · simp only [Option.bind_eq_bind, Option.bind_eq_some_iff, Option.some.injEq, Prod.mk.injEq] at h1
        obtain ⟨w2, h2, -, rfl⟩ := h1
        exact h.linkNew _ _ _ h2 hp
    · simp only [Option.bind_eq_bind, Option.bind_eq_some_iff, Option.some.injEq, Prod.mk.injEq] at e
      obtain ⟨w1, h1, -, -, rfl⟩ := e
      exact h.freeLink h1 hp
    · simp only [Option.some.injEq, Prod.mk.injEq] at e
      rw [← e.2.2]; exact hp
  · split at e
    · split at e
      · unfold parsePeer at e
        split at e
        · simp only [Option.some.injEq, Prod.mk.injEq] at e
          rw [← e.2.2]; exact hp
        · simp only [Option.bind_eq_bind, Option.bind_eq_some_iff, Prod.exists] at e
          obtain ⟨o, w1, h1, h2⟩ := e
          have hP := h.ifs _ h1 hp
          split at h2
          · simp only [Option.some.injEq, Prod.mk.injEq] at h2
            rw [← h2.2.2]; exact hP
          · simp only [Option.bind_eq_some_iff, Option.some.injEq, Prod.mk.injEq] at h2
            obtain ⟨w2, h2, -, -, rfl⟩ := h2
            exact h.peerNew _ _ _ h2 hP
      · simp only [Option.bind_eq_bind, Option.bind_eq_some_iff, Option.some.injEq, Prod.mk.injEq] at e
        obtain ⟨w1, h1, -, -, rfl⟩ := e
        exact h.free h1 hp
      · simp only [Option.some.injEq, Prod.mk.injEq] at e
        rw [← e.2.2]; exact hp
    · simp only [Option.some.injEq, Prod.mk.injEq] at e
      rw [← e.2.2]; exact hp

theorem HoldsApp.fetch (h : HoldsApp H P) (l : List (List Byte × Ifaces)) {r : Int} {w w' : W σ} (e : fetch H l w = some (r, w')) (hp : P w.app) : P w'.app := by
  induction l generalizing w with
  | nil =>
    rw [Mirror.fetch] at e
    simp only [Option.some.injEq, Prod.mk.injEq] at e
    rw [← e.2]; exact hp
  | cons q l ih =>
    obtain ⟨path, i⟩ := q
    rw [Mirror.fetch] at e
    simp only [Option.bind_eq_bind, Option.bind_eq_some_iff, Prod.exists] at e
    obtain ⟨c, b, w1, h1, h2⟩ := e
    have hP := h.object h1 hp
    split at h2
    · simp only [Option.some.injEq, Prod.mk.injEq] at h2
      rw [← h2.2]; exact hP
    · split at h2
      · simp only [Option.some.injEq, Prod.mk.injEq] at h2
        rw [← h2.2]; exact hP
      · exact ih h2 hP

/-- What all functions of the program keep is kept by every message. -/
theorem HoldsApp.receive (h : HoldsApp H P) {m : Msg} {r : Int} {w w' : W σ} (e : receive H w m = some (r, w')) (hp : P w.app) : P w'.app := by
  cases m with
  | added path i =>
    simp only [Mirror.receive, Option.bind_eq_bind, Option.bind_eq_some_iff, Prod.exists, Option.some.injEq, Prod.mk.injEq] at e
    obtain ⟨c, b, w1, h1, -, rfl⟩ := e
    exact h.object h1 hp
  | removed path =>
    simp only [Mirror.receive, Option.bind_eq_bind, Option.bind_eq_some_iff, Prod.exists, Option.some.injEq, Prod.mk.injEq] at e
    obtain ⟨c, b, w1, h1, -, rfl⟩ := e
    exact h.object h1 hp
  | changed path iface ps =>
    simp only [Mirror.receive] at e
    split at e
    · split at e
      · simp only [Option.some.injEq, Prod.mk.injEq] at e
        rw [← e.2]; exact hp
      · split at e
        · simp only [Option.some.injEq, Prod.mk.injEq] at e
          rw [← e.2]; exact hp
        · split at e
          all_goals
            simp only [Option.some.injEq, Prod.mk.injEq] at e
            rw [← e.2]; exact hp
    · split at e
      · simp only [Option.some.injEq, Prod.mk.injEq] at e
        rw [← e.2]; exact hp
      · split at e
        · simp only [Option.some.injEq, Prod.mk.injEq] at e
          rw [← e.2]; exact hp
        · simp only [Option.bind_eq_bind, Option.bind_eq_some_iff, Prod.exists, Option.some.injEq, Prod.mk.injEq] at e
          obtain ⟨c, b, w1, h1, -, rfl⟩ := e
          exact h.props h1 hp
  | prov path a b =>
    simp only [Mirror.receive] at e
    split at e
    · simp only [Option.some.injEq, Prod.mk.injEq] at e
      rw [← e.2]; exact hp
    · simp only [Option.bind_eq_bind, Option.bind_eq_some_iff, Option.some.injEq, Prod.mk.injEq] at e
      obtain ⟨w1, h1, -, rfl⟩ := e
      exact h.prov _ _ _ _ _ h1 hp
  | goNeg path a b =>
    simp only [Mirror.receive] at e
    split at e
    · simp only [Option.some.injEq, Prod.mk.injEq] at e
      rw [← e.2]; exact hp
    · simp only [Option.bind_eq_bind, Option.bind_eq_some_iff, Option.some.injEq, Prod.mk.injEq] at e
      obtain ⟨w1, h1, -, rfl⟩ := e
      exact h.goNeg _ _ _ _ _ h1 hp
  | failure path a =>
    simp only [Mirror.receive] at e
    split at e
    · simp only [Option.some.injEq, Prod.mk.injEq] at e
      rw [← e.2]; exact hp
    · simp only [Option.bind_eq_bind, Option.bind_eq_some_iff, Option.some.injEq, Prod.mk.injEq] at e
      obtain ⟨w1, h1, -, rfl⟩ := e
      exact h.failure _ _ _ _ h1 hp
  | objects l => exact h.fetch l e hp

end Verif.Mirror
