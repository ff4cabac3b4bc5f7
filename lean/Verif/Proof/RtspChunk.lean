import Verif.Proof.RtspCodes
import Verif.Spec.RtspParse
/-! From one byte to streams: helper lemmas. -/
namespace Verif.Rtsp
open Verif.C
open Spec (outcome)

/-- `dec->last_chr = c`. -/
def Bus.last (b : Bus) (c : Byte) : Bus := { b with dec := { b.dec with lastChr := c } }

/-- The machine fed byte by byte, every byte pushed just before it is looked at. -/
def run (env : Env) (b : Bus) : List Byte → Option (Int × Bus)
  | [] => some (0, b)
  | c :: t => do
    let r ← feedChar env (b.ext [c]) c
    if r.1 < 0 then some r else run env (r.2.last c) t

/-- Between bytes everything in the ring was looked at. -/
def Sync (b : Bus) : Prop := b.dec.buflen = b.dec.ring.length

theorem ext_ext (b : Bus) (x y : List Byte) : (b.ext x).ext y = b.ext (x ++ y) := by
  unfold Bus.ext Parser.ext; simp

theorem sync_push (b : Bus) (c : Byte) (h : Sync b) : (b.ext [c]).dec.buflen + 1 = (b.ext [c]).dec.ring.length := by
  show b.dec.buflen + 1 = (b.dec.ring ++ [c]).length
  rw [List.length_append, h]; rfl

theorem outcome_ext (r : Int × Bus) (rest : List Byte) (h : r.1 < 0) : outcome (extR rest r) = outcome r := by
  unfold outcome
  rw [if_pos h, if_pos (show (extR rest r).1 < 0 from h)]
  rfl

theorem feed_step (env : Env) (b : Bus) (h : Sync b) (c : Byte) (t : List Byte) :
    feedChar env (b.ext (c :: t)) c = (feedChar env (b.ext [c]) c).map (extR t) := by
  have := (feedChar_ok env (b.ext [c]) c (sync_push b c h)).1 t
  simp only [bext_nil, ext_ext] at this
  exact this

theorem feed_sync (env : Env) (b : Bus) (h : Sync b) (c : Byte) (r : Int × Bus) (hr : feedChar env (b.ext [c]) c = some r)
    (h0 : 0 ≤ r.1) : Sync r.2 := by
  have := (feedChar_ok env (b.ext [c]) c (sync_push b c h)).2 r (by simp only [bext_nil]; exact hr) h0
  exact this

theorem run_code (env : Env) (t : List Byte) : ∀ (b : Bus) (r : Int × Bus), run env b t = some r → PCode env r := by
  induction t with
  | nil => intro b r h; cases h; exact Or.inl code0
  | cons c t ih =>
    intro b r h
    unfold run at h
    simp only [Option.bind_eq_bind, Option.bind_eq_some_iff] at h
    obtain ⟨x, hx, h⟩ := h
    split at h
    · cases h; exact feedChar_code _ _ _ _ hx
    · exact ih _ _ h

theorem run_sync (env : Env) (t : List Byte) : ∀ (b : Bus) (r : Int × Bus), Sync b → run env b t = some r → 0 ≤ r.1 →
    r.1 = 0 ∧ Sync r.2 := by
  induction t with
  | nil => intro b r hb h _; cases h; exact ⟨rfl, hb⟩
  | cons c t ih =>
    intro b r hb h h0
    unfold run at h
    simp only [Option.bind_eq_bind, Option.bind_eq_some_iff] at h
    obtain ⟨x, hx, h⟩ := h
    split at h
    · cases h; omega
    · exact ih (x.2.last c) _ (feed_sync env b hb c x hx (by omega)) h h0

theorem feedLoop_run (env : Env) (t : List Byte) : ∀ b : Bus, Sync b →
    (feedLoop env (b.ext t) t).map outcome = (run env b t).map outcome ∧
    ∀ r, run env b t = some r → 0 ≤ r.1 → feedLoop env (b.ext t) t = some r := by
  induction t with
  | nil =>
    intro b _
    rw [bext_nil]
    exact ⟨rfl, fun r h _ => h⟩
  | cons c t ih =>
    intro b hb
    unfold feedLoop run
    rw [feed_step env b hb c t]
    cases hx : feedChar env (b.ext [c]) c with
    | none => exact ⟨rfl, fun r h _ => by cases h⟩
    | some x =>
      simp only [Option.map_some, Option.bind_eq_bind, Option.bind_some]
      rw [show (extR t x).1 = x.1 from rfl]
      by_cases h0 : x.1 < 0
      · rw [if_pos h0, if_pos h0]
        refine ⟨?_, fun r h hr => ?_⟩
        · simp only [Option.map_some]; rw [outcome_ext x t h0]
        · cases h; omega
      · rw [if_neg h0, if_neg h0]
        exact ih (x.2.last c) (feed_sync env b hb c x hx (by omega))

theorem run_append (env : Env) (x y : List Byte) : ∀ b : Bus,
    run env b (x ++ y) = (run env b x).bind (fun r => if r.1 < 0 then some r else run env r.2 y) := by
  induction x with
  | nil => intro b; rfl
  | cons c t ih =>
    intro b
    rw [List.cons_append]
    show (feedChar env (b.ext [c]) c).bind _ = ((feedChar env (b.ext [c]) c).bind _).bind _
    rw [Option.bind_assoc]
    congr 1
    funext r
    split
    · rename_i h; simp only [Option.bind_some]; rw [if_pos h]
    · exact ih _

theorem outcome_fst (r : Int × Bus) : (outcome r).1 = r.1 := by unfold outcome; split <;> rfl

theorem outcome_eq {r s : Int × Bus} (h : outcome r = outcome s) (h0 : 0 ≤ s.1) : r = s := by
  have h1 : r.1 = s.1 := by rw [← outcome_fst r, h, outcome_fst]
  unfold outcome at h
  rw [if_neg (by omega), if_neg (by omega)] at h
  exact h

theorem parseData_run (env : Env) (b : Bus) (hb : Sync b) (t : List Byte) (ht : t ≠ []) :
    (parseData env b t).map outcome = (run env b t).map outcome ∧
    ((∀ log m, (env.H log m).1 ≠ -EFAULT) → ∀ r, parseData env b t = some r → r.1 ≠ -EFAULT) := by
  unfold parseData
  rw [if_neg ht]
  have he : ({ b with dec := { b.dec with buflen := b.dec.ring.length, ring := b.dec.ring ++ t } } : Bus) = b.ext t := by
    unfold Bus.ext Parser.ext
    rw [← hb]
  simp only [Option.bind_eq_bind]
  rw [he]
  have hl := feedLoop_run env t b hb
  cases hr : run env b t with
  | none =>
    rw [hr] at hl
    cases hf : feedLoop env (b.ext t) t with
    | none => exact ⟨rfl, fun _ r h => by cases h⟩
    | some x => rw [hf] at hl; exact absurd hl.1 (by simp)
  | some s =>
    by_cases h0 : 0 ≤ s.1
    · rw [hl.2 s hr h0]
      simp only [Option.bind_some]
      have := run_sync env t b s hb hr h0
      rw [if_neg (by omega), if_neg (fun hn => hn this.2)]
      refine ⟨?_, fun _ r h => ?_⟩
      · simp only [Option.map_some]
        rw [show s = (0, s.2) from by rw [← this.1]]
      · cases h; show (0 : Int) ≠ -EFAULT; decide
    · rw [hr] at hl
      cases hf : feedLoop env (b.ext t) t with
      | none => rw [hf] at hl; exact absurd hl.1 (by simp)
      | some x =>
        rw [hf] at hl
        have h1 := hl.1
        simp only [Option.map_some, Option.some.injEq] at h1
        have hfst : x.1 = s.1 := by rw [← outcome_fst x, h1, outcome_fst]
        simp only [Option.bind_some]
        rw [if_pos (by omega)]
        refine ⟨by simp only [Option.map_some]; rw [h1], fun hE r h => ?_⟩
        cases h
        rw [hfst]
        rcases run_code env t b s hr with h | ⟨_, log, m, _, h⟩
        · exact h.fine.2
        · rw [h]; exact hE log m

theorem reads_run (env : Env) (hA : ∀ log m, (env.H log m).1 ≠ -EAGAIN)
    (cs : List (List Byte)) : ∀ b : Bus, Sync b →
    (reads env b cs).map outcome = (run env b cs.flatten).map outcome := by
  induction cs with
  | nil => intro b _; rfl
  | cons c t ih =>
    intro b hb
    unfold reads
    rw [List.flatten_cons, run_append]
    by_cases hc : c = []
    · rw [hc]
      simp only [parseData, if_pos, Option.bind_eq_bind, Option.bind_some]
      rw [if_neg (by simp)]
      rw [show run env b [] = some (0, b) from rfl]
      simp only [Option.bind_some]
      rw [if_neg (by decide)]
      exact ih b hb
    · have hp := parseData_run env b hb c hc
      cases hr : run env b c with
      | none =>
        rw [hr] at hp
        cases hf : parseData env b c with
        | none => rfl
        | some x => rw [hf] at hp; exact absurd hp.1 (by simp)
      | some s =>
        rw [hr] at hp
        cases hf : parseData env b c with
        | none => rw [hf] at hp; exact absurd hp.1 (by simp)
        | some x =>
          rw [hf] at hp
          have h1 := hp.1
          simp only [Option.map_some, Option.some.injEq] at h1
          have hfst : x.1 = s.1 := by rw [← outcome_fst x, h1, outcome_fst]
          simp only [Option.bind_eq_bind, Option.bind_some]
          by_cases h0 : s.1 < 0
          · have hne : x.1 ≠ -EAGAIN := by
              rw [hfst]
              rcases run_code env c b s hr with h | ⟨_, log, m, _, h⟩
              · exact h.fine.1
              · rw [h]; exact hA log m
            rw [if_pos h0, if_pos ⟨by omega, hne⟩]
            simp only [Option.map_some]; rw [h1]
          · rw [if_neg h0, if_neg (by omega)]
            have hx := outcome_eq h1 (by omega)
            rw [hx]
            exact ih s.2 (run_sync env c b s hb hr (by omega)).2

end Verif.Rtsp
