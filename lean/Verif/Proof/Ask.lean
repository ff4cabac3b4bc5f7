import Verif.Model.Ask
import Verif.Spec.Ask
import Verif.Proof.Wpas
/-! # Requests to wpa_supplicant: helper lemmas -/
namespace Verif.Ask
open Verif.C Verif.Wpas Verif.Ask.Spec

theorem seal_big (jk : Nat → Byte) (m : Msg) (hs : m.isSealed = false) (ht : m.type ≠ .event)
    (hroom : Qstr.room m.argv < 2147483648) :
    ∃ rest, sealMsg jk m = some (0, { m with
      rawlen := (Qstr.lineF [] m.argv).length, raw := Qstr.lineF [] m.argv ++ 0 :: rest, isSealed := true }) := by
  have hl := line_len m.argv []
  simp only [List.length_nil, Nat.zero_add] at hl
  rcases Qstr.join_ex m.argv (some jk) (fun _ => some jk) (by omega) with ⟨-, h⟩ | ⟨rest, e⟩
  · exfalso
    rcases h with h | ⟨k, h⟩ | h
    · simp at h
    · simp at h
    · omega
  · refine ⟨rest, ?_⟩
    unfold sealMsg
    rw [if_neg (by simp [hs]), e]
    simp only [Option.bind_eq_bind, Option.bind_some, if_neg ht]

/-- the arguments of texts -/
def texts (ts : List (List Byte)) : List Arg := ts.map fun t => .str (some t)

theorem appendLoop_texts (ts : List (List Byte)) : ∀ m : Msg, m.isSealed = false →
    appendLoop m (texts ts) = (0, { m with argv := m.argv ++ ts }) := by
  induction ts with
  | nil => intro m h; simp [texts, appendLoop]
  | cons t ts ih =>
    intro m h
    rw [texts, List.map_cons, appendLoop, appendBasic_ok h (t := t) rfl]
    simp only
    rw [if_neg (Int.lt_irrefl 0)]
    have := ih { m with argv := m.argv ++ [t] } h
    unfold texts at this
    rw [this]
    simp

theorem appends_texts (tss : List (List (List Byte))) : ∀ m : Msg, m.isSealed = false →
    appends m (tss.map texts) = (0, { m with argv := m.argv ++ tss.flatten }) := by
  induction tss with
  | nil => intro m h; simp [appends]
  | cons ts tss ih =>
    intro m h
    have e : append m (texts ts) = (0, { m with argv := m.argv ++ ts }) := by
      rw [append, if_neg (by simp [h]), appendLoop_texts ts m h]
    rw [List.map_cons, appends, e]
    simp only
    rw [if_neg (Int.lt_irrefl 0), ih { m with argv := m.argv ++ ts } h]
    simp

theorem call_line (jk : Nat → Byte) (name : List Byte) (tss : List (List (List Byte))) (hn : name ≠ [])
    (hroom : Qstr.room (name :: tss.flatten) < 2147483648) :
    call jk name (tss.map texts) = some (0, some (Qstr.lineF [] (name :: tss.flatten))) := by
  unfold call newRequest
  rw [if_neg hn]
  simp only
  rw [appends_texts tss _ rfl]
  simp only
  rw [if_neg (Int.lt_irrefl 0)]
  obtain ⟨rest, e⟩ := seal_big jk ({ newMsg (some name) with type := .request, argv := name :: tss.flatten } : Msg)
    rfl (by simp) hroom
  have e' : sealMsg jk ({ newMsg (some name) with type := .request, argv := (newMsg (some name)).argv ++ tss.flatten } : Msg) = _ := e
  simp only [newMsg] at e' ⊢
  rw [e']
  simp only [Option.bind_eq_bind, Option.bind_some]
  rw [if_neg (Int.lt_irrefl 0)]
  unfold wire
  simp only
  rw [rd_some (by simp)]
  simp

theorem lineF_app (ts : List (List Byte)) : ∀ done : List Byte, done ≠ [] →
    Qstr.lineF done ts = done ++ ts.flatMap (fun s => ch ' ' :: Qstr.enc s) := by
  induction ts with
  | nil => intro done h; simp [Qstr.lineF]
  | cons t ts ih =>
    intro done h
    unfold Qstr.lineF
    rw [if_neg h, ih _ (by simp)]
    simp

theorem line_eq (a : List Byte) (ha : Qstr.enc a = a) (hn : a ≠ []) (ts : List (List Byte)) :
    Qstr.lineF [] (a :: ts) = a ++ ts.flatMap (fun s => ch ' ' :: Qstr.enc s) := by
  unfold Qstr.lineF
  simp only [if_true, List.nil_append, ha]
  exact lineF_app ts a hn

theorem body_ge (s : List Byte) : s.length ≤ (Qstr.body s).length := by
  induction s with
  | nil => simp
  | cons c t ih =>
    rw [Qstr.body_cons, List.length_append, List.length_cons]
    have : 1 ≤ (Qstr.encC c).length := by unfold Qstr.encC; split <;> simp
    omega

theorem body_id (s : List Byte) : Qstr.body s = s ↔ ∀ c ∈ s, c ≠ ch '"' ∧ c ≠ ch '\\' := by
  induction s with
  | nil => simp [Qstr.body]
  | cons c t ih =>
    rw [Qstr.body_cons]
    by_cases hc : c = ch '\\' ∨ c = ch '"'
    · have hE : Qstr.encC c = [ch '\\', c] := by simp [Qstr.encC, hc]
      rw [hE]
      constructor
      · intro h
        have h := congrArg List.length h
        have := body_ge t
        simp only [List.length_append, List.length_cons, List.length_nil] at h
        omega
      · intro h
        have := h c (by simp)
        rcases hc with hc | hc
        · exact absurd hc this.2
        · exact absurd hc this.1
    · have hE : Qstr.encC c = [c] := by simp [Qstr.encC, hc]
      rw [hE, List.singleton_append, List.cons.injEq]
      constructor
      · intro h d hd
        rcases List.mem_cons.mp hd with rfl | hd
        · exact ⟨fun e => hc (Or.inr e), fun e => hc (Or.inl e)⟩
        · exact ih.mp h.2 d hd
      · intro h
        exact ⟨rfl, ih.mpr fun d hd => h d (by simp [hd])⟩

theorem enc_id (s : List Byte) : Qstr.enc s = s ↔ Unquoted s := by
  unfold Qstr.enc
  by_cases hq : Qstr.needQuote s = true
  · rw [if_pos hq]
    constructor
    · intro h
      have h := congrArg List.length h
      have := body_ge s
      simp only [List.length_append, List.length_cons, List.length_nil] at h
      omega
    · intro h
      exfalso
      unfold Qstr.needQuote at hq
      rw [List.any_eq_true] at hq
      obtain ⟨c, hc, h1⟩ := hq
      have := h c hc
      simp only [Bool.or_eq_true, decide_eq_true_eq] at h1
      rcases h1 with ((h1 | h1) | h1) | h1
      · exact this.1 h1
      · exact this.2.1 h1
      · exact this.2.2.1 h1
      · exact this.2.2.2.1 h1
  · rw [if_neg hq, body_id]
    have hq' : ∀ c ∈ s, c ≠ ch ' ' ∧ c ≠ 9 ∧ c ≠ 10 ∧ c ≠ 11 := by
      intro c hc
      refine ⟨?_, ?_, ?_, ?_⟩ <;>
      · intro e
        apply hq
        unfold Qstr.needQuote
        rw [List.any_eq_true]
        exact ⟨c, hc, by simp [e]⟩
    constructor
    · intro h c hc
      exact ⟨(hq' c hc).1, (hq' c hc).2.1, (hq' c hc).2.2.1, (hq' c hc).2.2.2, h c hc⟩
    · intro h c hc
      exact (h c hc).2.2.2.2

theorem divide_app (a r : List Byte) (h : ch ' ' ∉ a) : divide (a ++ ch ' ' :: r) = (a, some r) := by
  induction a with
  | nil => simp [divide]
  | cons c t ih =>
    rw [List.cons_append, divide, if_neg (by intro e; exact h (by simp [e])), ih (fun hm => h (by simp [hm]))]

theorem divide_none (a : List Byte) (h : ch ' ' ∉ a) : divide a = (a, none) := by
  induction a with
  | nil => simp [divide]
  | cons c t ih =>
    rw [divide, if_neg (by intro e; exact h (by simp [e])), ih (fun hm => h (by simp [hm]))]

theorem words_ne (l : List Byte) : words l ≠ [] := by
  cases l with
  | nil => simp [words]
  | cons c t =>
    unfold words
    split
    · simp
    · cases words t <;> simp [push]

theorem words_app (a r : List Byte) : words (a ++ ch ' ' :: r) = words a ++ words r := by
  induction a with
  | nil => simp [words]
  | cons c t ih =>
    rw [List.cons_append, words, words]
    split
    · rw [ih]; simp
    · rw [ih]
      have := words_ne t
      cases hw : words t with
      | nil => exact absurd hw this
      | cons w ws => simp [push]

theorem words_one (a : List Byte) (h : ch ' ' ∉ a) : words a = [a] := by
  induction a with
  | nil => simp [words]
  | cons c t ih =>
    rw [words, if_neg (by intro e; exact h (by simp [e])), ih (fun hm => h (by simp [hm]))]
    rfl

theorem words_single (l : List Byte) : ∀ w, words l = [w] → l = w := by
  induction l with
  | nil => intro w h; simpa [words] using h
  | cons c t ih =>
    intro w h
    rw [words] at h
    split at h
    · simp only [List.cons.injEq] at h
      exact absurd h.2 (words_ne t)
    · cases hw : words t with
      | nil => exact absurd hw (words_ne t)
      | cons w' ws =>
        rw [hw] at h
        simp only [push, List.cons.injEq] at h
        obtain ⟨rfl, rfl⟩ := h
        rw [ih w' hw]

theorem plain_blank {s : List Byte} (h : Unquoted s) : ch ' ' ∉ s := fun hm => (h _ hm).1 rfl

instance (s : List Byte) : Decidable (Unquoted s) := by unfold Unquoted; infer_instance

theorem room_cons (a : List Byte) (t : List (List Byte)) : Qstr.room (a :: t) = a.length * 2 + 4 + Qstr.room t := by
  simp [Qstr.room]

theorem room_nil : Qstr.room [] = 0 := rfl

end Verif.Ask
