import Verif.Proof.WifictlCmd
import Verif.Proof.Cli
import Verif.Proof.Atoi
/-! # Lemmas about the controller of the wifi daemon: what exactly a command does -/
namespace Verif.Wifictl
open Verif.C Verif.Mirror

/-! ### Names -/

theorem sameName_iff (x : Option (List Byte)) (n : List Byte) : sameName x n = true ↔ x.map key = some (key n) := by
  unfold sameName
  cases x with
  | none => simp
  | some v => simp [caseEq_key]

theorem sameName_false (x : Option (List Byte)) (n : List Byte) : ¬ sameName x n = true ↔ x.map key ≠ some (key n) := by
  rw [sameName_iff]

theorem find_first {α : Type} (ls : List α) (f : α → Bool) (P : α → Prop) (h : ∀ a, f a = true ↔ P a) (a : α) : ls.find? f = some a ↔ firstOf ls P a := by
  rw [List.find?_eq_some_iff_append]
  constructor
  · rintro ⟨h1, u, v, e, h2⟩
    refine ⟨u, v, e, (h a).mp h1, fun b hb hp => ?_⟩
    have := h2 b hb
    rw [(h b).mpr hp] at this
    cases this
  · rintro ⟨u, v, e, h1, h2⟩
    refine ⟨(h a).mpr h1, u, v, e, fun b hb => ?_⟩
    cases hf : f b with
    | false => rfl
    | true => exact absurd ((h b).mp hf) (h2 b hb)

theorem find_no {α : Type} (ls : List α) (f : α → Bool) (P : α → Prop) (h : ∀ a, f a = true ↔ P a) : ls.find? f = none ↔ ∀ a ∈ ls, ¬ P a := by
  rw [List.find?_eq_none]
  constructor
  · intro g a ha hp; exact g a ha ((h a).mpr hp)
  · intro g a ha hf; exact g a ha ((h a).mp hf)

theorem first_mem {α : Type} {ls : List α} {P : α → Prop} {a : α} (h : firstOf ls P a) : a ∈ ls ∧ P a := by
  obtain ⟨u, v, e, h1, -⟩ := h
  exact ⟨by rw [e]; simp, h1⟩

/-- Two ways of finding, the second only if the first finds nothing. -/
theorem orElse_iff {α : Type} {o x : Option α} {A B N : Prop} {a : α} (ho : o = some a ↔ A) (hn : o = none ↔ N) (hx : x = some a ↔ B) : o.or x = some a ↔ A ∨ (N ∧ B) := by
  cases o with
  | some b =>
    rw [Option.some_or, ho]
    constructor
    · exact Or.inl
    · rintro (h | ⟨h, -⟩)
      · exact h
      · exact absurd (hn.mpr h) (by simp)
  | none =>
    rw [Option.none_or, hx]
    constructor
    · exact fun h => Or.inr ⟨hn.mp rfl, h⟩
    · rintro (h | ⟨-, h⟩)
      · exact absurd (ho.mpr h) (by simp)
      · exact h

theorem searchLink_or (w : S) (n : List Byte) : w.searchLink n = if n = [] then none else
    (w.findLink n).or ((w.links.find? (fun l => sameName l.ifname n)).or (w.links.find? (fun l => sameName l.friendly n))) := by
  unfold W.searchLink
  cases w.findLink n <;> cases w.links.find? (fun l => sameName l.ifname n) <;> rfl

theorem searchIn_or (ps : List Peer) (n : List Byte) : searchIn ps n = (ps.find? (fun p => startsAt p.label n)).or ((ps.find? (fun p => sameName p.friendly n)).or
    ((ps.find? (fun p => sameName p.iface n)).or ((indexOf n).bind fun i => ps[i]?))) := by
  unfold searchIn
  cases ps.find? (fun p => startsAt p.label n) <;> cases ps.find? (fun p => sameName p.friendly n) <;> cases ps.find? (fun p => sameName p.iface n) <;> rfl

theorem searchPeer_or (w : S) (n : List Byte) : w.searchPeer n = if n = [] then none else
    (w.findPeer n).or (((w.searchLinkByPeer n).bind (fun l => searchIn l.peers (n.takeWhile (· ≠ ch '@')))).or (searchIn (w.links.flatMap (·.peers)) n)) := by
  unfold W.searchPeer
  cases w.findPeer n <;> cases (w.searchLinkByPeer n).bind (fun l => searchIn l.peers (n.takeWhile (· ≠ ch '@'))) <;> rfl

theorem searchLink_iff (w : S) (n : List Byte) (l : Link) : w.searchLink n = some l ↔ meansLink w n l := by
  rw [searchLink_or]
  unfold meansLink
  by_cases hn : n = []
  · simp [hn]
  · rw [if_neg hn]
    simp only [ne_eq, hn, not_false_eq_true, true_and]
    have hL : ∀ a : Link, caseEq a.label n = true ↔ key a.label = key n := fun a => by simp [caseEq_key]
    refine orElse_iff ?_ ?_ ?_
    · unfold W.findLink
      rw [if_neg hn]
      exact find_first _ _ _ hL l
    · unfold W.findLink
      rw [if_neg hn]
      exact find_no _ _ _ hL
    · exact orElse_iff (find_first _ _ _ (fun a => sameName_iff a.ifname n) l) (find_no _ _ _ fun a => sameName_iff a.ifname n) (find_first _ _ _ (fun a => sameName_iff a.friendly n) l)

theorem digits_lt (b : Nat) (t : List Byte) : ∀ v ∈ Atoi.Spec.digits b t, v < b := by
  induction t with
  | nil => intro v hv; cases hv
  | cons c t ih =>
    intro v hv
    rw [Atoi.Spec.digits] at hv
    split at hv
    · rename_i u hu
      rcases List.mem_cons.mp hv with rfl | hv
      · exact List.mem_range.mp (List.mem_of_find?_eq_some hu)
      · exact ih v hv
    · cases hv

theorem lastDigit_lt (n : List Byte) : Atoi.Spec.lastDigit n 10 < 10 := by
  unfold Atoi.Spec.lastDigit Atoi.Spec.effBase
  rw [if_neg (by decide)]
  simp only [List.drop_zero]
  cases hg : (Atoi.Spec.digits 10 n).getLast? with
  | none => simp
  | some v => exact digits_lt 10 n v (List.mem_of_getLast? hg)

theorem indexOf_iff (n : List Byte) (i : Nat) : indexOf n = some i ↔ isNumber n i := by
  obtain ⟨h1, h2⟩ := Atoi.atoiUlln_spec n 10 (by decide)
  have h3 := lastDigit_lt n
  have h32 : W32 = 4294967296 := rfl
  have h64 : W64 = 18446744073709551616 := rfl
  have hlen : Atoi.Spec.stop n 10 ≤ n.length := by
    unfold Atoi.Spec.stop Atoi.Spec.effBase
    rw [if_neg (by decide)]
    simp only [Nat.zero_add, List.drop_zero]
    exact Atoi.digits_length_le 10 n
  have e : n.drop (Atoi.Spec.stop n 10) = [] ↔ Atoi.Spec.stop n 10 = n.length := by
    rw [List.drop_eq_nil_iff]; omega
  have hw : (W32 - 1 : Nat) = 4294967295 := rfl
  unfold indexOf isNumber Atoi.atoiUn Atoi.narrow ERANGE
  simp only [h1, hw]
  rw [← e]
  by_cases hd : n.drop (Atoi.Spec.stop n 10) = []
  · simp only [hd, ne_eq, not_true_eq_false, or_false, true_and]
    rcases h2 with ⟨g1, g2, g3⟩ | ⟨g1, g2, g3, g4⟩ | ⟨g1, g2, g3⟩
    · rw [g2, g3]
      by_cases hx : Atoi.Spec.number n 10 > 4294967295
      · rw [if_pos (by rw [if_pos ⟨Int.le_refl 0, hx⟩]; decide)]
        constructor
        · intro x; cases x
        · rintro ⟨rfl, x⟩; omega
      · rw [if_neg (by rw [if_neg (fun x => hx x.2)]; decide), show (Atoi.Spec.number n 10).min 4294967295 = Atoi.Spec.number n 10 from Nat.min_eq_left (by omega)]
        simp only [Option.some.injEq]
        constructor
        · intro x; exact ⟨x, by omega⟩
        · exact fun x => x.1
    · rw [g3, g4, if_pos (by rw [if_pos ⟨Int.le_refl 0, by omega⟩]; decide)]
      constructor
      · intro x; cases x
      · rintro ⟨rfl, x⟩; omega
    · rw [g2, g3]
      unfold ERANGE
      rw [if_pos (by rw [if_neg (fun x => absurd x.1 (by decide))]; decide)]
      constructor
      · intro x; cases x
      · rintro ⟨rfl, x⟩; omega
  · simp only [hd, ne_eq, not_false_eq_true, or_true, if_true, false_and, iff_false]
    intro x; cases x

theorem searchIn_iff (ps : List Peer) (n : List Byte) (p : Peer) : searchIn ps n = some p ↔ meansAmong ps n p := by
  rw [searchIn_or]
  unfold meansAmong
  have pre : ∀ q : Peer, startsAt q.label n = true ↔ n ++ [ch '@'] <+: q.label := fun q => List.isPrefixOf_iff_prefix
  refine orElse_iff (find_first _ _ _ pre p) (find_no _ _ _ pre) ?_
  refine orElse_iff (find_first _ _ _ (fun a => sameName_iff a.friendly n) p) (find_no _ _ _ fun a => sameName_iff a.friendly n) ?_
  refine orElse_iff (find_first _ _ _ (fun a => sameName_iff a.iface n) p) (find_no _ _ _ fun a => sameName_iff a.iface n) ?_
  rw [Option.bind_eq_some_iff]
  simp only [indexOf_iff]

theorem at_split (n : List Byte) : match afterAt n with
    | none => ch '@' ∉ n
    | some l => n = n.takeWhile (· ≠ ch '@') ++ ch '@' :: l ∧ ch '@' ∉ n.takeWhile (· ≠ ch '@') := by
  induction n with
  | nil => simp [afterAt]
  | cons c n ih =>
    rw [afterAt_cons]
    by_cases hc : c = ch '@'
    · subst hc
      simp
    · rw [if_neg hc]
      cases ha : afterAt n with
      | none =>
        rw [ha] at ih
        simp only at ih ⊢
        simp [ih, Ne.symm hc]
      | some l =>
        rw [ha] at ih
        simp only at ih ⊢
        rw [List.takeWhile_cons_of_pos (by simpa using hc)]
        refine ⟨by rw [List.cons_append, ← ih.1], ?_⟩
        simp only [List.mem_cons, not_or]
        exact ⟨Ne.symm hc, ih.2⟩

theorem at_unique {x y l m : List Byte} (h : x ++ ch '@' :: l = y ++ ch '@' :: m) (hx : ch '@' ∉ x) (hy : ch '@' ∉ y) : x = y ∧ l = m := by
  induction x generalizing y with
  | nil =>
    cases y with
    | nil => simpa using h
    | cons b y => simp only [List.nil_append, List.cons_append, List.cons.injEq] at h; exact absurd (by rw [h.1]; simp) hy
  | cons a x ih =>
    cases y with
    | nil => simp only [List.nil_append, List.cons_append, List.cons.injEq] at h; exact absurd (by rw [← h.1]; simp) hx
    | cons b y =>
      simp only [List.cons_append, List.cons.injEq] at h
      obtain ⟨rfl, h⟩ := h
      obtain ⟨rfl, rfl⟩ := ih h (fun e => hx (by simp [e])) (fun e => hy (by simp [e]))
      exact ⟨rfl, rfl⟩

theorem there_iff (w : S) {n : List Byte} (hn : n ≠ []) (p : Peer) :
    (w.searchLinkByPeer n).bind (fun l => searchIn l.peers (n.takeWhile (· ≠ ch '@'))) = some p ↔ meansThere w n p := by
  unfold W.searchLinkByPeer meansThere
  rw [if_neg hn]
  have hs := at_split n
  cases ha : afterAt n with
  | none =>
    rw [ha] at hs
    simp only [Option.bind_none]
    constructor
    · intro h; cases h
    · rintro ⟨x, l, k, e, -⟩
      exact absurd (by rw [e]; simp) hs
  | some l =>
    rw [ha] at hs
    simp only at hs
    simp only [Option.bind_some, Option.bind_eq_some_iff, searchIn_iff, searchLink_iff]
    constructor
    · rintro ⟨k, h1, h2⟩
      exact ⟨_, l, k, hs.1, hs.2, h1, h2⟩
    · rintro ⟨x, l2, k, e, h0, h1, h2⟩
      obtain ⟨rfl, rfl⟩ := at_unique (e.symm.trans hs.1) h0 hs.2
      exact ⟨k, h1, h2⟩

theorem searchPeer_iff {w : S} (hg : Good (w.links.map shape) w.next) (n : List Byte) (p : Peer) : w.searchPeer n = some p ↔ meansPeer w n p := by
  rw [searchPeer_or]
  unfold meansPeer
  by_cases hn : n = []
  · simp [hn]
  · rw [if_neg hn]
    simp only [ne_eq, hn, not_false_eq_true, true_and]
    have h1 : ∀ q, w.findPeer n = some q ↔ q ∈ peersOf w ∧ key q.label = key n := by
      intro q
      rw [findPeer_iff hg]
      unfold peersOf
      rw [List.mem_flatMap]
      constructor
      · rintro ⟨l, hl, hp, e⟩; exact ⟨⟨l, hl, hp⟩, e⟩
      · rintro ⟨⟨l, hl, hp⟩, e⟩; exact ⟨l, hl, hp, e⟩
    refine orElse_iff (h1 p) ?_ ?_
    · constructor
      · intro h q hq e
        have := (h1 q).mpr ⟨hq, e⟩
        rw [h] at this; cases this
      · intro h
        cases hf : w.findPeer n with
        | none => rfl
        | some q => exact absurd ((h1 q).mp hf).2 (h q ((h1 q).mp hf).1)
    · refine orElse_iff (there_iff w hn p) ?_ (searchIn_iff _ n p)
      constructor
      · intro h q hq
        have := (there_iff w hn q).mpr hq
        rw [h] at this; cases this
      · intro h
        cases hf : (w.searchLinkByPeer n).bind (fun l => searchIn l.peers (n.takeWhile (· ≠ ch '@'))) with
        | none => rfl
        | some q => exact absurd ((there_iff w hn q).mp hf) (h q)

/-! ### Commands -/

/-- The result of a handler as the command line passes it on. -/
def passed (r : Int) : Int := if r = -Cli.EAGAIN then -EINVAL else r

theorem table_argc (E : Env) : ∀ c ∈ table E, 0 ≤ c.argc ∧ c.argc < W32 := by
  intro c hc
  simp only [table, List.mem_cons, List.not_mem_nil, or_false] at hc
  have hW : W32 = 4294967296 := rfl
  rcases hc with rfl | rfl | rfl | rfl | rfl | rfl | rfl | rfl | rfl | rfl | rfl <;> (simp only; omega)

theorem command_exact (E : Env) (rl : Bool) (w : S) {cmd : List Byte} {args : List (List Byte)} {c : Cli.Cmd (Option S)} {g : List (List Byte) → S → Option (Int × S)}
    (hn : args.length < W32) (hch : Cli.chosen rl (table E) cmd = some c) (hleg : Cli.legal c args.length) (hfn : c.fn = some (lift g)) :
    command E rl (cmd :: args) w = (g args w).map fun r => (passed r.1, r.2) := by
  unfold command Cli.cliDo
  simp only
  rw [Cli.doLoop_eq _ _ _ _ _ _ hn _ (table_argc E), hch]
  simp only
  rw [if_pos hleg, hfn]
  simp only
  cases hga : g args w with
  | none =>
    have e : lift g args (some w) = (0, none) := by simp only [lift, hga]
    rw [e]
    rfl
  | some q =>
    have e : lift g args (some w) = (q.1, some q.2) := by simp only [lift, hga]
    rw [e]
    rfl

/-! ### The commands of the table -/

section
variable (E : Env) (rl : Bool) (w : S)

theorem small {n k : Nat} (h : n ≤ k) (hk : k ≤ 3) : n < W32 := by
  have : W32 = 4294967296 := rfl
  omega

/-- A row of the table. -/
def row (E : Env) (i : Nat) (h : i < 11) : Cli.Cmd (Option S) := (table E).get ⟨i, h⟩

theorem command_list : command E rl [bytes "list"] w = (cmdList w).map fun r => (passed r.1, r.2) :=
  command_exact E rl w (g := fun _ => cmdList) (args := []) (c := row E 0 (by decide)) (by decide) (by cases rl <;> rfl) (by change (0 : Int) ≤ 0; decide) rfl

theorem command_select {args : List (List Byte)} (h : args.length ≤ 1) : command E true (bytes "select" :: args) w = (cmdSelect E args w).map fun r => (passed r.1, r.2) :=
  command_exact E true w (g := cmdSelect E) (c := row E 1 (by decide)) (small h (by decide)) rfl (by change (args.length : Int) ≤ 1; omega) rfl

theorem command_show {args : List (List Byte)} (h : args.length ≤ 1) : command E rl (bytes "show" :: args) w = (cmdShow args w).map fun r => (passed r.1, r.2) :=
  command_exact E rl w (g := cmdShow) (c := row E 2 (by decide)) (small h (by decide)) (by cases rl <;> rfl) (by change (args.length : Int) ≤ 1; omega) rfl

theorem command_name {args : List (List Byte)} (h : args.length ≤ 2) : command E rl (bytes "set-friendly-name" :: args) w = (cmdName E args w).map fun r => (passed r.1, r.2) :=
  command_exact E rl w (g := cmdName E) (c := row E 3 (by decide)) (small h (by decide)) (by cases rl <;> rfl) (by change (args.length : Int) ≤ 2; omega) rfl

theorem command_managed {args : List (List Byte)} (h : args.length ≤ 2) : command E rl (bytes "set-managed" :: args) w = (cmdManaged E args w).map fun r => (passed r.1, r.2) :=
  command_exact E rl w (g := cmdManaged E) (c := row E 4 (by decide)) (small h (by decide)) (by cases rl <;> rfl) (by change (args.length : Int) ≤ 2; omega) rfl

theorem command_scan {args : List (List Byte)} (h : args.length ≤ 2) : command E true (bytes "p2p-scan" :: args) w = (cmdScan E args w).map fun r => (passed r.1, r.2) :=
  command_exact E true w (g := cmdScan E) (c := row E 5 (by decide)) (small h (by decide)) rfl (by change (args.length : Int) ≤ 2; omega) rfl

theorem command_connect {args : List (List Byte)} (h : args.length ≤ 3) : command E rl (bytes "connect" :: args) w = (cmdConnect E args w).map fun r => (passed r.1, r.2) :=
  command_exact E rl w (g := cmdConnect E) (c := row E 6 (by decide)) (small h (by decide)) (by cases rl <;> rfl) (by change (args.length : Int) ≤ 3; omega) rfl

theorem command_disconnect {args : List (List Byte)} (h : args.length = 1) : command E rl (bytes "disconnect" :: args) w = (cmdDisconnect E args w).map fun r => (passed r.1, r.2) :=
  command_exact E rl w (g := cmdDisconnect E) (c := row E 7 (by decide)) (small (Nat.le_of_eq h) (by decide)) (by cases rl <;> rfl) (by change (args.length : Int) = 1; omega) rfl

theorem command_quit {args : List (List Byte)} (h : args.length < W32) : command E true (bytes "quit" :: args) w = some (0, { w with app := { w.app with quit := true } }) := by
  rw [command_exact E true w (g := fun _ => cmdQuit) (c := row E 8 (by decide)) h rfl (by change (0 : Int) ≤ (args.length : Int); omega) rfl]
  rfl
end

theorem passed_zero : passed 0 = 0 := by decide

theorem passed_call (E : Env) (a : Act) (w : S) : (passed (call E a w).1 = 0 ↔ 0 ≤ E.bus w.app.log.length) := by
  unfold passed call
  simp only
  have : Cli.EAGAIN = 11 := rfl
  have : EINVAL = 22 := rfl
  split <;> omega

theorem passed_neg (r : Int) (h : r ≤ 0) : passed r < 0 ↔ r < 0 := by
  unfold passed
  have : Cli.EAGAIN = 11 := rfl
  have : EINVAL = 22 := rfl
  split <;> omega

/-- Setting a property of a link. -/
theorem setManaged_exact (E : Env) {w : S} {o : Obs} (h : Inv w o) {l : Link} (hl : l ∈ w.links) (v : Bool) :
    (l.managed = v ∧ setManaged E l.id v w = some (0, w)) ∨ (l.managed ≠ v ∧ ∃ r w' path, setManaged E l.id v w = some (r, w') ∧ isPath Wifid.linkPre path l.label ∧
      sent E (passed r) w w' (.set path (bytes "Managed") (.b v))) := by
  unfold setManaged
  simp only [linkAt_id h.rel.good hl, Option.bind_eq_bind, Option.bind_some]
  by_cases hv : l.managed = v
  · exact Or.inl ⟨hv, by rw [if_pos hv]⟩
  · refine Or.inr ⟨hv, _, _, pathOf Wifid.linkPre l.label, by rw [if_neg hv], labelOf_path (h.nul l hl), ?_, passed_call _ _ _⟩
    split <;> rfl

theorem setName_exact (E : Env) {w : S} {o : Obs} (h : Inv w o) {l : Link} (hl : l ∈ w.links) {y : List Byte} (hy : l.friendly = some y) (v : List Byte) :
    (y = v ∧ setName E l.id v w = some (0, w)) ∨ (y ≠ v ∧ ∃ r w' path, setName E l.id v w = some (r, w') ∧ isPath Wifid.linkPre path l.label ∧
      sent E (passed r) w w' (.set path (bytes "FriendlyName") (.s v))) := by
  unfold setName
  simp only [linkAt_id h.rel.good hl, Option.bind_eq_bind, Option.bind_some, hy]
  by_cases hv : y = v
  · exact Or.inl ⟨hv, by rw [if_pos hv]⟩
  · exact Or.inr ⟨hv, _, _, pathOf Wifid.linkPre l.label, by rw [if_neg hv], labelOf_path (h.nul l hl), rfl, passed_call _ _ _⟩

theorem setScan_exact (E : Env) {w : S} {o : Obs} (h : Inv w o) {l : Link} (hl : l ∈ w.links) (v : Bool) :
    (l.scanning = v ∧ setScan E l.id v w = some (0, w)) ∨ (l.scanning ≠ v ∧ ∃ r w' path, setScan E l.id v w = some (r, w') ∧ isPath Wifid.linkPre path l.label ∧
      sent E (passed r) w w' (.set path (bytes "P2PScanning") (.b v))) := by
  unfold setScan
  simp only [linkAt_id h.rel.good hl, Option.bind_eq_bind, Option.bind_some]
  by_cases hv : l.scanning = v
  · exact Or.inl ⟨hv, by rw [if_pos hv]⟩
  · refine Or.inr ⟨hv, _, _, pathOf Wifid.linkPre l.label, by rw [if_neg hv], labelOf_path (h.nul l hl), ?_, passed_call _ _ _⟩
    split <;> rfl

theorem provPin_asks (rest : List (List Byte)) : asksFor rest (provPin rest).1 (provPin rest).2 := by
  match rest with
  | [] => exact ⟨rfl, rfl⟩
  | [x] =>
    unfold asksFor provPin validProv
    simp only [List.mem_cons, List.not_mem_nil, or_false]
    by_cases h : x = bytes "auto" ∨ x = bytes "pbc" ∨ x = bytes "display" ∨ x = bytes "pin"
    · rw [if_pos h]
      have : (decide (x = bytes "auto") || decide (x = bytes "pbc") || decide (x = bytes "display") || decide (x = bytes "pin")) = true := by
        simp only [Bool.or_eq_true, decide_eq_true_eq, or_assoc]; exact h
      rw [if_pos this]
      exact ⟨rfl, rfl⟩
    · rw [if_neg h]
      have : ¬ (decide (x = bytes "auto") || decide (x = bytes "pbc") || decide (x = bytes "display") || decide (x = bytes "pin")) = true := by
        simp only [Bool.or_eq_true, decide_eq_true_eq, or_assoc]; exact h
      rw [if_neg this]
      exact ⟨rfl, rfl⟩
  | x :: y :: _ => exact ⟨rfl, rfl⟩

end Verif.Wifictl
