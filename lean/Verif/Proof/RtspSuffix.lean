import Verif.Proof.RtspChunk
/-! The receiver only ever takes bytes away from the front of its buffer: helper lemmas. -/
namespace Verif.Rtsp
open Verif.C

theorem pull_suffix (d : Parser) (n l : Nat) : (pull d n l).ring <:+ d.ring := List.drop_suffix _ _

theorem feedNew_suffix (d : Parser) (c : Byte) : (feedNew d c).ring <:+ d.ring := by
  unfold feedNew
  split
  · exact List.suffix_refl _
  · split
    · exact List.drop_suffix _ _
    · exact List.drop_suffix _ _

theorem submit_suffix (env : Env) (b : Bus) (r : Int × Bus) (h : submit env b = some r) : r.2.dec.ring <:+ b.dec.ring := by
  rw [(submit_ring env b r h).1]; exact List.suffix_refl _

theorem headerEnd_suffix (env : Env) (b : Bus) (d : Parser) (s0 s1 : PState) (r : Int × Bus) (h : headerEnd env b d s0 s1 = some r) :
    r.2.dec.ring <:+ d.ring := by
  unfold headerEnd at h
  simp only [Option.bind_eq_bind, Option.bind_eq_some_iff] at h
  obtain ⟨x, hx, h⟩ := h
  have hr := (finish_ring _ _ _ hx).1
  split at h
  · cases h; show x.2.ring <:+ _; rw [hr]; exact List.suffix_refl _
  · split at h
    · have := submit_suffix _ _ _ h
      exact this.trans (by show x.2.ring.drop _ <:+ _; rw [hr]; exact List.drop_suffix _ _)
    · cases h; show x.2.ring.drop _ <:+ _; rw [hr]; exact List.drop_suffix _ _

theorem feedHeader_suffix (env : Env) (b : Bus) (c : Byte) (r : Int × Bus) (h : feedHeader env b c = some r) : r.2.dec.ring <:+ b.dec.ring := by
  unfold feedHeader at h
  simp only at h
  split at h
  · split at h
    · exact headerEnd_suffix env b (b.dec.goto .headerNl) _ _ r h
    · cases h; exact List.suffix_refl _
  · split at h
    · split at h
      · exact headerEnd_suffix _ _ _ _ _ _ h
      · cases h; exact List.suffix_refl _
    · split at h
      · cases h; exact List.suffix_refl _
      · split at h
        · simp only [Option.bind_eq_bind, Option.bind_eq_some_iff] at h
          obtain ⟨x, hx, h⟩ := h
          have hr := (finish_ring _ _ _ hx).1
          split at h
          · cases h; show x.2.ring <:+ _; rw [hr]; exact List.suffix_refl _
          · cases h
            show (headerChar _ c).ring <:+ _
            rw [(headerChar_len _ _).2]
            show x.2.ring.drop _ <:+ _
            rw [hr]; exact List.drop_suffix _ _
        · cases h
          show (headerChar _ c).ring <:+ _
          rw [(headerChar_len _ _).2]; exact List.suffix_refl _

theorem feedBody_suffix (env : Env) (b : Bus) (c : Byte) (r : Int × Bus) (h : feedBody env b c = some r) : r.2.dec.ring <:+ b.dec.ring := by
  unfold feedBody at h
  split at h
  · cases h; exact feedNew_suffix (b.dec.goto .new) c
  · simp only at h
    split at h
    · cases h; exact List.suffix_refl _
    · simp only [Option.map_eq_some_iff] at h
      obtain ⟨x, hx, h⟩ := h
      cases h
      have := (bodyDone_ring _ _ _ hx).1
      show x.2.dec.ring.drop _ <:+ _
      rw [this]; exact List.drop_suffix _ _

theorem feedChar_suffix (env : Env) (b : Bus) (c : Byte) (r : Int × Bus) (h : feedChar env b c = some r) : r.2.dec.ring <:+ b.dec.ring := by
  unfold feedChar at h
  cases hs : b.dec.state with
  | new => rw [hs] at h; cases h; exact feedNew_suffix _ _
  | header => rw [hs] at h; exact feedHeader_suffix _ _ _ _ h
  | headerQuote =>
    rw [hs] at h; cases h
    show (feedQuote b.dec c).ring <:+ _
    unfold feedQuote
    split
    · exact List.suffix_refl _
    · split <;> exact List.suffix_refl _
  | headerNl =>
    rw [hs] at h
    simp only at h
    unfold feedNl at h
    split at h
    · cases h; exact List.drop_suffix _ _
    · exact (feedBody_suffix env _ c r h).trans (List.drop_suffix _ _)
  | body => rw [hs] at h; exact feedBody_suffix _ _ _ _ h
  | dataHead =>
    rw [hs] at h
    simp only [Option.map_eq_some_iff] at h
    obtain ⟨x, hx, h⟩ := h
    cases h
    show x.ring <:+ _
    unfold feedDataHead at hx
    split at hx
    · simp only [Option.bind_eq_bind, Option.bind_eq_some_iff] at hx
      obtain ⟨_, _, _, _, _, _, _, _, hx⟩ := hx
      cases hx; exact List.drop_suffix _ _
    · cases hx; exact List.suffix_refl _
  | dataBody =>
    rw [hs] at h
    simp only at h
    unfold feedDataBody at h
    simp only at h
    split at h
    · simp only [Option.bind_eq_bind, Option.bind_eq_some_iff] at h
      obtain ⟨p, _, x, hx, h⟩ := h
      cases h
      have := (submitData_ring _ _ _ _ hx).1
      show x.2.dec.ring.drop _ <:+ _
      rw [this]; exact List.drop_suffix _ _
    · cases h; exact List.suffix_refl _

theorem suffix_append {a b : List Byte} (h : a <:+ b) (t : List Byte) : a ++ t <:+ b ++ t := by
  obtain ⟨p, rfl⟩ := h
  exact ⟨p, by simp⟩

theorem run_suffix (env : Env) (t : List Byte) : ∀ (b : Bus) (r : Int × Bus), run env b t = some r → 0 ≤ r.1 →
    r.2.dec.ring <:+ b.dec.ring ++ t := by
  induction t with
  | nil => intro b r h _; cases h; simp
  | cons c t ih =>
    intro b r h h0
    unfold run at h
    simp only [Option.bind_eq_bind, Option.bind_eq_some_iff] at h
    obtain ⟨x, hx, h⟩ := h
    split at h
    · cases h; omega
    · have h1 := ih (x.2.last c) r h h0
      have h2 : x.2.dec.ring <:+ b.dec.ring ++ [c] := feedChar_suffix env _ c x hx
      have h3 := suffix_append h2 t
      rw [List.append_assoc] at h3
      exact h1.trans h3

end Verif.Rtsp
