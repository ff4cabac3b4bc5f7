import Verif.Proof.Helper
/-! # The DHCP helper: its options -/
namespace Verif.Helper
open Verif.C OptValue.Spec

theorem final_cons {α : Type} (f : Arg → Option α) (a : Arg) (as : List Arg) : final f (a :: as) = (final f as).or (f a) := by
  unfold final
  rw [List.reverse_cons, List.findSome?_append, List.findSome?_singleton]

/-- The options over what was set before. -/
def over (o : Opts) (as : List Arg) : Opts :=
  { netdev := (final Arg.netdev? as).or o.netdev, ip := (final Arg.ip? as).or o.ip, comm := ((final Arg.comm? as).bind atoi).getD o.comm
    server := (final Arg.server? as).isSome || o.server, pre := (final Arg.pre? as).or o.pre, loc := (final Arg.loc? as).or o.loc
    gateway := (final Arg.gateway? as).or o.gateway, dns := (final Arg.dns? as).or o.dns, subnet := (final Arg.subnet? as).or o.subnet
    first := (final Arg.first? as).or o.first, last := (final Arg.last? as).or o.last }

theorem final_mem {α : Type} {f : Arg → Option α} {as : List Arg} {x : α} (h : final f as = some x) : ∃ a ∈ as, f a = some x := by
  obtain ⟨a, h1, h2⟩ := List.exists_of_findSome?_eq_some h
  exact ⟨a, List.mem_reverse.mp h1, h2⟩

theorem or_assoc' {α : Type} (a b c : Option α) : (a.or b).or c = a.or (b.or c) := by cases a <;> rfl

theorem readArgs_over : ∀ (as : List Arg) (o : Opts), (∀ a ∈ as, a.ends = none) → (∀ v, .commFd v ∈ as → atoi v ≠ none) → readArgs as o = some (.ok (over o as))
  | [], o, _, _ => by simp [readArgs, over, final]
  | a :: as, o, he, hn => by
    have he' : ∀ a ∈ as, a.ends = none := fun b hb => he b (List.mem_cons.mpr (.inr hb))
    have hn' : ∀ v, .commFd v ∈ as → atoi v ≠ none := fun b hb => hn b (List.mem_cons.mpr (.inr hb))
    have ih := fun o => readArgs_over as o he' hn'
    have h0 := he a List.mem_cons_self
    cases a with
    | help => cases h0
    | version => cases h0
    | bad => cases h0
    | commFd v =>
      have h1 := hn v List.mem_cons_self
      obtain ⟨n, h1⟩ := Option.ne_none_iff_exists'.mp h1
      simp only [readArgs, h1, ih]
      unfold over
      simp only [final_cons]
      congr 3
      all_goals first | (simp [Arg.netdev?, Arg.ip?, Arg.server?, Arg.pre?, Arg.loc?, Arg.gateway?, Arg.dns?, Arg.subnet?, Arg.first?, Arg.last?]; done) | skip
      simp only [Arg.comm?]
      cases hf : final Arg.comm? as with
      | none => simp [h1]
      | some w =>
        obtain ⟨a, h2, h3⟩ := final_mem hf
        cases a <;> simp only [Arg.comm?, reduceCtorEq, Option.some.injEq] at h3
        subst h3
        obtain ⟨m, h4⟩ := Option.ne_none_iff_exists'.mp (hn' _ h2)
        simp [h4]
    | _ =>
      simp only [readArgs, ih]
      unfold over
      simp only [final_cons]
      congr 3
      all_goals simp [Arg.netdev?, Arg.ip?, Arg.comm?, Arg.server?, Arg.pre?, Arg.loc?, Arg.gateway?, Arg.dns?, Arg.subnet?, Arg.first?, Arg.last?, or_assoc']

/-- The first of them ends the program. -/
theorem readArgs_ends {n : Nat} : ∀ (as : List Arg) (o : Opts) {a : Arg} {bs : List Arg}, (∀ a ∈ as, a.ends = none) → (∀ v, .commFd v ∈ as → atoi v ≠ none) → a.ends = some n →
    readArgs (as ++ a :: bs) o = some (.exit n)
  | [], o, a, bs, _, _, h => by
    cases a <;> simp only [Arg.ends, reduceCtorEq, Option.some.injEq] at h
    all_goals subst h; rfl
  | b :: as, o, a, bs, he, hn, h => by
    have he' : ∀ a ∈ as, a.ends = none := fun b hb => he b (List.mem_cons.mpr (.inr hb))
    have hn' : ∀ v, .commFd v ∈ as → atoi v ≠ none := fun b hb => hn b (List.mem_cons.mpr (.inr hb))
    have ih := fun o => readArgs_ends as o (a := a) (bs := bs) he' hn' h
    have h0 := he b List.mem_cons_self
    cases b with
    | help => cases h0
    | version => cases h0
    | bad => cases h0
    | commFd v =>
      obtain ⟨k, h1⟩ := Option.ne_none_iff_exists'.mp (hn v List.mem_cons_self)
      simp only [List.cons_append, readArgs, h1, ih]
    | _ => simp only [List.cons_append, readArgs, ih]

theorem addrs_iff {as : List Arg} {o : Opts} (h : o = over {} as) (a : Addrs) : addrs o = some a ↔ Asked as a := by
  subst h
  unfold addrs
  simp only [Option.bind_eq_bind, Option.bind_eq_some_iff, Option.some.injEq, makeSubnet_iff, makeAddress_iff, over, Option.or_none]
  constructor
  · rintro ⟨l, h1, g, h2, d, h3, s, h4, f, h5, t, h6, rfl⟩
    exact ⟨h1, h2, h3, ⟨h4.1, by rw [h4.1]; exact h4.2⟩, h5, h6⟩
  · rintro ⟨h1, h2, h3, h4, h5, h6⟩
    exact ⟨_, h1, _, h2, _, h3, _, ⟨h4.1, by rw [← h4.1]; exact h4.2⟩, _, h5, _, h6, rfl⟩

theorem final_none {α : Type} {f : Arg → Option α} {as : List Arg} : final f as = none ↔ ∀ a ∈ as, f a = none := by
  unfold final
  rw [List.findSome?_eq_none_iff]
  simp

/-! ### The log grows -/

theorem send_grows (E : Env) (l : List Byte) (h : H) : h.log <+: (send E l h).log := by
  unfold send
  split
  · exact List.prefix_rfl
  · simp only
    split
    · exact ⟨_, (act_log _ _ _).symm⟩
    · exact ⟨_, (act_log _ _ _).symm⟩

theorem sends_grow (E : Env) : ∀ (ls : List (List Byte)) (h : H), h.log <+: (ls.foldl (fun h l => send E l h) h).log
  | [], _ => List.prefix_rfl
  | l :: ls, h => (send_grows E l h).trans (sends_grow E ls _)

theorem setAddr_grows (E : Env) (a : List Byte) (h : H) : h.log <+: (setAddr E a h).2.log := by
  unfold setAddr
  simp only
  split
  · exact ⟨_, (act_log _ _ _).symm⟩
  · rw [act_log, act_log, List.append_assoc]
    exact ⟨_, rfl⟩

theorem step_grows (E : Env) (server : Bool) (h : H) (e : Ev) : h.log <+: (step E server h e).log := by
  cases e with
  | lease addr subnet dns gateway =>
    simp only [step]
    split
    · exact List.prefix_rfl
    · unfold lease
      split
      · exact List.prefix_rfl
      · rename_i a
        simp only
        have h1 := setAddr_grows E (a ++ ch '/' :: subnet.headD (bytes "24")) { h with addr := some (a ++ ch '/' :: subnet.headD (bytes "24")) }
        split
        · exact List.prefix_rfl
        · split
          · exact h1
          · exact h1.trans (sends_grow E _ _)
  | noLease => simp only [step]; split <;> exact List.prefix_rfl
  | given mac ip =>
    simp only [step]
    split
    · exact send_grows E _ h
    · exact List.prefix_rfl
  | signal => exact List.prefix_rfl

theorem run_grows (E : Env) (server : Bool) : ∀ (es : List Ev) (h : H), h.log <+: (run E server h es).log
  | [], _ => List.prefix_rfl
  | e :: es, h => (step_grows E server h e).trans (run_grows E server es _)

theorem loop_case (E : Env) (c : Conf) (es : List Ev) (h : H) :
    ((loop E c es h).1 < 0 ∧ (loop E c es h).2.log = h.log ++ [(.start, false)]) ∨ ((loop E c es h).1 = 0 ∧ h.log ++ [(.start, true)] <+: (loop E c es h).2.log) := by
  unfold loop
  simp only
  have h1 := act_log E .start h
  cases hr : (act E .start h).1 with
  | false =>
    rw [hr] at h1
    simp only [Bool.false_eq_true, not_false_eq_true, if_true]
    exact .inl ⟨by decide, h1⟩
  | true =>
    rw [hr] at h1
    simp only [not_true_eq_false, if_false]
    right
    rw [← h1]
    split
    · exact ⟨rfl, run_grows E _ _ _⟩
    · exact ⟨rfl, (send_grows E _ _).trans (run_grows E _ _ _)⟩

theorem free_log (E : Env) (c : Conf) (made : Bool) (h : H) : ∃ v, (free E c made h).log = (if made then (act E .stop h).2 else h).log ++ v ∧ ∀ x ∈ v, x.1 = .flush := by
  unfold free
  simp only
  generalize (if made = true then (act E .stop h).2 else h) = k
  split
  · exact ⟨_, act_log _ _ _, fun x hx => by rw [List.mem_singleton.mp hx]⟩
  · exact ⟨[], by simp, fun x hx => (nomatch hx)⟩

theorem free_mem {E : Env} {c : Conf} {made : Bool} {h : H} {x : Act × Bool} (hs : x.1 ≠ .stop) (hf : x.1 ≠ .flush) : x ∈ (free E c made h).log ↔ x ∈ h.log := by
  obtain ⟨v, h1, h2⟩ := free_log E c made h
  rw [h1, List.mem_append]
  have h3 : x ∉ v := fun e => hf (h2 x e)
  cases made with
  | false => simp [h3]
  | true =>
    simp only [if_true]
    rw [act_log, List.mem_append, List.mem_singleton]
    constructor
    · rintro ((e | e) | e)
      · exact e
      · rw [e] at hs; exact absurd rfl hs
      · exact absurd e h3
    · exact fun e => .inl (.inl e)

theorem setAddr_acts {E : Env} {b : List Byte} {h : H} (hl : h.log = []) : ∀ x ∈ (setAddr E b h).2.log, touches x.1 := by
  unfold setAddr act
  simp only [hl]
  split
  · intro x hx
    cases List.mem_singleton.mp hx
    exact True.intro
  · intro x hx
    simp only [List.nil_append, List.singleton_append, List.mem_cons, List.not_mem_nil, or_false] at hx
    obtain rfl | rfl := hx <;> exact True.intro

/-- What `new` did. -/
theorem new_case (E : Env) (c : Conf) {h : H} (hl : h.log = []) :
    ((new E c h).1 < 0 ∧ (new E c h).2.1 = false ∧ (Act.make, true) ∉ (new E c h).2.2.log ∨ (new E c h).1 = 0 ∧ (new E c h).2.1 = true ∧ (Act.make, true) ∈ (new E c h).2.2.log) ∧
    ∀ r, (Act.start, r) ∉ (new E c h).2.2.log := by
  have hm : ∀ (k : H), (Act.make, true) ∉ k.log → (∀ r, (Act.start, r) ∉ k.log) →
      ((if (act E .make k).1 then (0 : Int) else -EINVAL) < 0 ∧ (act E .make k).1 = false ∧ (Act.make, true) ∉ (act E .make k).2.log ∨
        (if (act E .make k).1 then (0 : Int) else -EINVAL) = 0 ∧ (act E .make k).1 = true ∧ (Act.make, true) ∈ (act E .make k).2.log) ∧
      ∀ r, (Act.start, r) ∉ (act E .make k).2.log := by
    intro k h1 h2
    rw [act_log]
    cases hr : (act E .make k).1 with
    | false =>
      refine ⟨.inl ⟨by decide, rfl, ?_⟩, ?_⟩
      · simp [h1]
      · intro r; simp [h2 r]
    | true =>
      refine ⟨.inr ⟨rfl, rfl, by simp⟩, ?_⟩
      intro r; simp [h2 r]
  unfold new
  split
  · exact hm h (by simp [hl]) (by simp [hl])
  · rename_i a _
    have h1 := setAddr_acts (E := E) (b := a.loc ++ ch '/' :: a.subnet) (h := { h with addr := some (a.loc ++ ch '/' :: a.subnet) }) hl
    simp only
    split
    · exact ⟨.inl ⟨show (-EFAULT : Int) < 0 by decide, rfl, fun e => h1 _ e⟩, fun r e => h1 _ e⟩
    · exact hm _ (fun e => h1 _ e) (fun r e => h1 _ e)

/-! ### Nothing is sent after a packet that failed -/

def Quiet (h : H) : Prop := ∀ u l v, h.log = u ++ (Act.send l, false) :: v → h.comm = false ∧ ∀ x ∈ v, ∀ m, x.1 ≠ .send m

theorem snoc_split {α : Type} {l u v : List α} {x y : α} (h : l ++ [x] = u ++ y :: v) : (v = [] ∧ l = u ∧ x = y) ∨ ∃ w, v = w ++ [x] ∧ l = u ++ y :: w := by
  rcases List.eq_nil_or_concat v with rfl | ⟨w, z, rfl⟩
  · have := List.append_inj' h rfl
    exact .inl ⟨rfl, this.1, by simpa using this.2⟩
  · right
    rw [List.concat_eq_append] at h ⊢
    have h2 : l ++ [x] = (u ++ y :: w) ++ [z] := by rw [h]; simp
    have := List.append_inj' h2 rfl
    exact ⟨w, by rw [show x = z by simpa using this.2], this.1⟩

theorem quiet_act {E : Env} {a : Act} {h : H} (hq : Quiet h) (ha : ∀ m, a ≠ .send m) : Quiet (act E a h).2 := by
  intro u l v e
  rw [act_log] at e
  obtain ⟨-, -, h3⟩ | ⟨w, rfl, h2⟩ := snoc_split e
  · exact absurd (congrArg Prod.fst h3) (ha l)
  · obtain ⟨h4, h5⟩ := hq u l w h2
    refine ⟨h4, fun x hx m => ?_⟩
    obtain hx | hx := List.mem_append.mp hx
    · exact h5 x hx m
    · rw [List.mem_singleton.mp hx]; exact ha m

theorem quiet_send {E : Env} {l : List Byte} {h : H} (hq : Quiet h) : Quiet (send E l h) := by
  cases hc : h.comm with
  | false =>
    unfold send
    rw [if_pos (by simp [hc])]
    exact hq
  | true =>
    intro u m v e
    have hl : (send E l h).log = h.log ++ [(.send l, (act E (.send l) h).1)] ∧ ((act E (.send l) h).1 = false → (send E l h).comm = false) := by
      unfold send
      rw [if_neg (by simp [hc])]
      simp only
      cases hr : (act E (.send l) h).1 with
      | true => exact ⟨by rw [if_pos rfl, act_log, hr], fun e => (nomatch e)⟩
      | false =>
        rw [if_neg (by simp)]
        exact ⟨by rw [show ∀ (k : H), ({ k with comm := false } : H).log = k.log from fun _ => rfl, act_log, hr], fun _ => rfl⟩
    rw [hl.1] at e
    obtain ⟨rfl, -, h3⟩ | ⟨w, rfl, h2⟩ := snoc_split e
    · exact ⟨hl.2 (congrArg Prod.snd h3), fun x hx => (nomatch hx)⟩
    · have := (hq u m w h2).1
      rw [hc] at this
      cases this

theorem quiet_sends {E : Env} : ∀ (ls : List (List Byte)) {h : H}, Quiet h → Quiet (ls.foldl (fun h l => send E l h) h)
  | [], _, hq => hq
  | _ :: ls, _, hq => quiet_sends ls (quiet_send hq)

theorem quiet_setAddr {E : Env} {a : List Byte} {h : H} (hq : Quiet h) : Quiet (setAddr E a h).2 := by
  unfold setAddr
  simp only
  have h1 : Quiet (act E .flush h).2 := quiet_act hq (fun _ e => nomatch e)
  split
  · exact h1
  · exact quiet_act h1 (fun _ e => nomatch e)

theorem quiet_step {E : Env} {server : Bool} {h : H} (hq : Quiet h) (e : Ev) : Quiet (step E server h e) := by
  cases e with
  | lease addr subnet dns gateway =>
    simp only [step]
    split
    · exact hq
    · unfold lease
      split
      · exact hq
      · rename_i a
        simp only
        have h1 := quiet_setAddr (E := E) (a := a ++ ch '/' :: subnet.headD (bytes "24")) (h := { h with addr := some (a ++ ch '/' :: subnet.headD (bytes "24")) }) hq
        split
        · exact hq
        · split
          · exact h1
          · exact quiet_sends _ h1
  | noLease => simp only [step]; split <;> exact hq
  | given mac ip =>
    simp only [step]
    split
    · exact quiet_send hq
    · exact hq
  | signal => exact hq

theorem quiet_run {E : Env} {server : Bool} : ∀ (es : List Ev) {h : H}, Quiet h → Quiet (run E server h es)
  | [], _, hq => hq
  | e :: es, _, hq => quiet_run es (quiet_step hq e)

theorem quiet_main (E : Env) (c : Conf) (es : List Ev) {u v : List (Act × Bool)} {l : List Byte} (e : (main E c es).2 = u ++ (.send l, false) :: v) : ∀ x ∈ v, ∀ m, x.1 ≠ .send m := by
  have h0 : Quiet ({ comm := 0 ≤ c.comm } : H) := fun u l v e => absurd e (by simp)
  have hn : Quiet (new E c { comm := 0 ≤ c.comm }).2.2 := by
    unfold new
    split
    · exact quiet_act h0 (fun _ e => nomatch e)
    · rename_i a _
      simp only
      have h1 := quiet_setAddr (E := E) (a := a.loc ++ ch '/' :: a.subnet) (h := { comm := 0 ≤ c.comm, addr := some (a.loc ++ ch '/' :: a.subnet) }) h0
      split
      · exact h1
      · exact quiet_act h1 (fun _ e => nomatch e)
  have hl : Quiet (loop E c es (new E c { comm := 0 ≤ c.comm }).2.2).2 := by
    unfold loop
    simp only
    have h1 : Quiet (act E .start (new E c { comm := 0 ≤ c.comm }).2.2).2 := quiet_act hn (fun _ e => nomatch e)
    split
    · exact h1
    · split
      · exact quiet_run es h1
      · exact quiet_run es (quiet_send h1)
  have hf : ∀ (made : Bool) {h : H}, Quiet h → Quiet (free E c made h) := by
    intro made h hq
    unfold free
    simp only
    have h1 : Quiet (if made = true then (act E .stop h).2 else h) := by
      split
      · exact quiet_act hq (fun _ e => nomatch e)
      · exact hq
    generalize (if made = true then (act E .stop h).2 else h) = k at *
    split
    · exact quiet_act h1 (fun _ e => nomatch e)
    · exact h1
  unfold main at e
  simp only at e
  split at e
  · exact (hf _ hn u l v e).2
  · exact (hf _ hl u l v e).2

end Verif.Helper
