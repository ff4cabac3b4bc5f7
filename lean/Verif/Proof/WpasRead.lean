import Verif.Spec.WpasRead
/-! # The position in a message -/
namespace Verif.Wpas
open Verif.C

/-! ## The reading position -/

/-- Position 0. -/
def base (m : Msg) : Nat := if m.name.isSome then 1 else 0

theorem appendLoop_iter (as : List Arg) : ∀ m : Msg,
    (appendLoop m as).2.iter = m.iter ∧ (appendLoop m as).2.name = m.name := by
  induction as with
  | nil => intro m; exact ⟨rfl, rfl⟩
  | cons a t ih =>
    intro m
    have hb : (appendBasic m a).2.iter = m.iter ∧ (appendBasic m a).2.name = m.name := by
      unfold appendBasic
      split
      · exact ⟨rfl, rfl⟩
      · split <;> exact ⟨rfl, rfl⟩
    unfold appendLoop
    dsimp only
    split
    · exact hb
    · have := ih (appendBasic m a).2
      exact ⟨this.1.trans hb.1, this.2.trans hb.2⟩

theorem parse_some {jk : Nat → Byte} {server : Bool} {d : List Byte} {m : Msg} (h : parse jk server d = some (some m)) :
    ∃ n x mo as, m = finish d n x mo ∧
      (parseEvent as = some mo ∨ mo = some (parseArgs newReply as).2 ∨ parseRequest as = some mo) := by
  unfold parse at h
  simp only [Option.bind_eq_bind] at h
  have key : ∀ (tk : Option (Option (List (List Byte)))), (tk.bind fun toks =>
      match toks with
      | none => some none
      | some args =>
        if server = false ∧ (ifSplit d).2.head? = some (ch '<') then
          (parseEvent args).bind fun m => some (some (finish d (ifSplit d).2.length (ifSplit d).1 m))
        else if server = false then
          (some (some (parseArgs newReply args).2)).bind fun m => some (some (finish d (ifSplit d).2.length (ifSplit d).1 m))
        else (parseRequest args).bind fun m => some (some (finish d (ifSplit d).2.length (ifSplit d).1 m))) = some (some m) →
      ∃ n x mo as, m = finish d n x mo ∧
      (parseEvent as = some mo ∨ mo = some (parseArgs newReply as).2 ∨ parseRequest as = some mo) := by
    intro tk h
    rw [Option.bind_eq_some_iff] at h
    obtain ⟨toks, -, h⟩ := h
    cases toks with
    | none => simp at h
    | some as =>
      simp only at h
      split at h
      · rw [Option.bind_eq_some_iff] at h
        obtain ⟨mo, h1, h2⟩ := h
        simp only [Option.some.injEq] at h2
        exact ⟨_, _, mo, as, h2.symm, Or.inl h1⟩
      · split at h
        · simp only [Option.bind_some, Option.some.injEq] at h
          exact ⟨_, _, _, as, h.symm, Or.inr (Or.inl rfl)⟩
        · rw [Option.bind_eq_some_iff] at h
          obtain ⟨mo, h1, h2⟩ := h
          simp only [Option.some.injEq] at h2
          exact ⟨_, _, mo, as, h2.symm, Or.inr (Or.inr h1)⟩
  split at h
  · exact key _ h
  · exact key _ h

theorem recv_start {jk : Nat → Byte} {server : Bool} {d : List Byte} {m : Msg} (h : recv jk server d = some (some m)) :
    m.iter = base m ∧ m.hasPeer = true := by
  unfold recv at h
  split at h
  · simp at h
  · obtain ⟨n, x, mo, as, rfl, hm⟩ := parse_some h
    refine ⟨?_, rfl⟩
    show (mo.getD (newMsg (some []))).iter = base (mo.getD (newMsg (some [])))
    cases mo with
    | none => rfl
    | some x =>
      show x.iter = base x
      have hpa : ∀ (y : Msg) (l : List (List Byte)), y.iter = base y → (parseArgs y l).2.iter = base (parseArgs y l).2 := by
        intro y l hy
        have := appendLoop_iter (l.map (fun t => Arg.str (some (t.takeWhile (· ≠ 0))))) y
        unfold parseArgs base
        rw [this.1, this.2]
        exact hy
      rcases hm with hm | hm | hm
      · unfold parseEvent at hm
        cases as with
        | nil => simp at hm
        | cons t as =>
          simp only at hm
          split at hm
          · simp at hm
          · simp only [Option.bind_eq_bind, Option.bind_eq_some_iff, Option.some.injEq] at hm
            obtain ⟨v, -, e, he, hm⟩ := hm
            subst hm
            refine hpa e as ?_
            unfold newEvent at he
            split at he
            · simp at he
            · cases he; rfl
      · simp only [Option.some.injEq] at hm
        subst hm
        exact hpa _ _ rfl
      · unfold parseRequest at hm
        cases as with
        | nil => simp at hm
        | cons t as =>
          simp only at hm
          split at hm
          · simp at hm
          · simp only [Option.bind_eq_bind, Option.bind_eq_some_iff, Option.some.injEq] at hm
            obtain ⟨e, he, hm⟩ := hm
            subst hm
            refine hpa e as ?_
            unfold newRequest at he
            split at he
            · simp at he
            · cases he; rfl

theorem args_get (m : Msg) (n : Nat) : (Spec.args m)[n]? = m.argv[base m + n]? := by
  unfold Spec.args base
  cases m.name with
  | none => simp
  | some x => simp [List.getElem?_tail, Nat.add_comm]

theorem skip_read (m : Msg) (ty : Ty) : skipBasic m ty = (readBasic m ty).map (fun r => (r.1, r.2.1)) := by
  unfold skipBasic readBasic
  cases m.argv[m.iter]? with
  | none => rfl
  | some e =>
    simp only [Option.bind_eq_bind]
    cases convert e ty with
    | none => rfl
    | some v => cases v <;> rfl

theorem read_move (m : Msg) (n : Nat) (ty : Ty) (h : m.iter = base m + n) {r : Int × Msg × Option Val}
    (hr : readBasic m ty = some r) : r.2.1 = { m with iter := base m + (match (Spec.args m)[n]? with
      | some a => if (convert a ty).bind (fun v => v) |>.isSome then n + 1 else n
      | none => n) } := by
  have hm : { m with iter := base m + n } = m := by rw [← h]
  unfold readBasic at hr
  rw [args_get, ← h]
  cases ha : m.argv[m.iter]? with
  | none =>
    rw [ha] at hr
    cases hr
    exact hm.symm
  | some a =>
    rw [ha] at hr
    simp only [Option.bind_eq_bind, Option.bind_eq_some_iff] at hr ⊢
    obtain ⟨v, hv, hr⟩ := hr
    cases v with
    | none =>
      cases hr
      simp only [hv]
      exact hm.symm
    | some v =>
      cases hr
      simp only [hv, h, Nat.add_assoc]
      rfl

theorem use_cursor (us : List Spec.Use) : ∀ (m : Msg) (n : Nat), m.iter = base m + n → ∀ m', Spec.use m us = some m' →
    m' = { m with iter := base m + Spec.cursor (Spec.args m) n us } := by
  induction us with
  | nil =>
    intro m n h m' hm
    cases hm
    show m = _
    unfold Spec.cursor
    rw [← h]
  | cons u t ih =>
    intro m n h m' hm
    cases u with
    | rewind =>
      have := ih (rewind m) 0 rfl m' hm
      exact this
    | read ty =>
      unfold Spec.use at hm
      simp only [Option.bind_eq_bind, Option.bind_eq_some_iff] at hm
      obtain ⟨r, hr, hm⟩ := hm
      have hmv := read_move m n ty h hr
      rw [hmv] at hm
      have e := fun k hk => ih _ k hk m' hm
      exact e _ rfl
    | skip ty =>
      unfold Spec.use at hm
      simp only [Option.bind_eq_bind, Option.bind_eq_some_iff] at hm
      obtain ⟨r, hr, hm⟩ := hm
      rw [skip_read] at hr
      simp only [Option.map_eq_some_iff] at hr
      obtain ⟨r', hr', e⟩ := hr
      have hmv := read_move m n ty h hr'
      rw [← e] at hm
      dsimp only at hm
      rw [hmv] at hm
      have e := fun k hk => ih _ k hk m' hm
      exact e _ rfl

end Verif.Wpas
