import Verif.Spec.Helper
import Verif.Proof.OptValue
/-! # The DHCP helper: proofs -/
namespace Verif.Helper
open Verif.C OptValue.Spec

/-! ### Addresses -/

/-- The text read so far. -/
structure Shape (u : List Byte) (s : Pton) : Prop where
  text : u = s.xs.flatMap (fun x => dec x ++ bytes ".") ++ (if s.saw then dec s.cur else [])
  xs : ∀ x ∈ s.xs, x ≤ 255
  cur : s.cur ≤ 255
  none : s.saw = false → s.cur = 0
  len : s.xs.length ≤ 3

theorem dec_snoc {n d : Nat} (hn : n ≠ 0) (hd : d < 10) : dec (n * 10 + d) = dec n ++ [(48 + d).toUInt8] := by
  rw [dec_eq (n * 10 + d), if_neg (by omega), show (n * 10 + d) / 10 = n by omega, show (n * 10 + d) % 10 = d by omega]

theorem byte_of {c : Byte} {d : Nat} (h : c.toNat = d) : d.toUInt8 = c := by
  subst h; simp

theorem shape_step {u : List Byte} {s s' : Pton} {c : Byte} (h : Shape u s) (e : s.step c = some s') : Shape (u ++ [c]) s' := by
  unfold Pton.step at e
  split at e
  · rename_i hc
    split at e
    · cases e
    split at e
    · cases e
    split at e
    · cases e
    · rename_i h1 h2 h3
      cases e
      have hd : (48 + (c.toNat - 48)).toUInt8 = c := byte_of (by omega)
      refine ⟨?_, h.xs, ?_, ?_, h.len⟩
      · rw [h.text]
        simp only [if_true, List.append_assoc, List.append_cancel_left_eq]
        cases hs : s.saw with
        | false =>
          rw [h.none hs, if_neg (by simp), dec_eq, if_pos (by omega)]
          simp only [Nat.zero_mul, Nat.zero_add, hd, List.nil_append]
        | true =>
          have : s.cur ≠ 0 := fun e => h1 ⟨hs, e⟩
          rw [dec_snoc this (by omega), hd]
          simp
      · change s.cur * 10 + (c.toNat - 48) ≤ 255; omega
      · intro e; cases e
  · split at e
    · rename_i hc
      split at e
      · cases e
      · rename_i h3
        cases e
        refine ⟨?_, ?_, Nat.zero_le _, fun _ => rfl, ?_⟩
        · rw [h.text, hc.1]
          simp [hc.2, show bytes "." = [ch (Char.ofNat 46)] from rfl]
        · intro x hx
          rcases List.mem_append.mp hx with hx | hx
          · exact h.xs x hx
          · rw [List.mem_singleton.mp hx]; exact h.cur
        · have := h.len
          simp only [List.length_append, List.length_singleton]
          omega
    · cases e

theorem shape_run : ∀ (v u : List Byte) {s s' : Pton}, Shape u s → s.run v = some s' → Shape (u ++ v) s'
  | [], u, s, s', h, e => by
    cases e; simpa using h
  | c :: v, u, s, s', h, e => by
    obtain ⟨t, h1, h2⟩ := Option.bind_eq_some_iff.mp e
    have := shape_run v (u ++ [c]) (shape_step h h1) h2
    simpa using this

theorem run_app (s : Pton) : ∀ (u v : List Byte), s.run (u ++ v) = (s.run u).bind fun t => t.run v := by
  intro u
  induction u generalizing s with
  | nil => intro v; rfl
  | cons c u ih =>
    intro v
    simp only [List.cons_append, Pton.run, Option.bind_assoc]
    congr 1
    funext t
    exact ih t v

theorem run_dec {xs : List Nat} (hx : xs.length < 4) : ∀ (x : Nat), x ≤ 255 → Pton.run ⟨xs, 0, false⟩ (dec x) = some ⟨xs, x, true⟩ := by
  intro x
  induction x using Nat.strongRecOn with
  | _ x ih =>
    intro h
    have hdig : ∀ d : Nat, d < 10 → ((48 + d).toUInt8 : Byte).toNat = 48 + d := by
      intro d hd
      simp only [Nat.toUInt8, UInt8.toNat_ofNat']
      omega
    rw [dec_eq]
    by_cases hn : x < 10
    · rw [if_pos hn]
      simp only [Pton.run, Pton.step, hdig x hn]
      rw [if_pos (by omega), if_neg (by simp), if_neg (by omega), if_neg (by simp only [not_and]; intro _; omega)]
      simp
    · rw [if_neg hn, run_app, ih (x / 10) (by omega) (by omega)]
      simp only [Option.bind_some, Pton.run, Pton.step, hdig (x % 10) (by omega)]
      rw [if_pos (by omega), if_neg (by simp; omega), if_neg (by omega), if_neg (by simp)]
      simp only [Option.bind_some, Option.some.injEq, Pton.mk.injEq, true_and, and_true]
      omega

theorem run_dot {xs : List Nat} {x : Nat} (hx : xs.length < 3) (v : List Byte) : Pton.run ⟨xs, x, true⟩ (bytes "." ++ v) = Pton.run ⟨xs ++ [x], 0, false⟩ v := by
  have : bytes "." = [ch '.'] := rfl
  rw [this]
  simp only [List.cons_append, List.nil_append, Pton.run, Pton.step]
  rw [if_neg (by decide), if_pos (by simp), if_neg (by omega)]
  rfl

theorem quad_le (b : Byte) : b.toNat ≤ 255 := by have := b.toNat_lt; omega

theorem pton_dotted (q : Quad) : pton (dotted q) = some [q.1.toNat, q.2.1.toNat, q.2.2.1.toNat, q.2.2.2.toNat] := by
  unfold pton dotted
  simp only [List.append_assoc]
  rw [run_app, show ({} : Pton) = ⟨[], 0, false⟩ from rfl, run_dec (by simp) _ (quad_le _), Option.bind_some, run_dot (by simp), run_app, run_dec (by simp) _ (quad_le _), Option.bind_some, run_dot (by simp),
    run_app, run_dec (by simp) _ (quad_le _), Option.bind_some, run_dot (by simp), run_dec (by simp) _ (quad_le _)]
  simp

theorem pton_iff (t : List Byte) (a : List Nat) : pton t = some a ↔ ∃ q : Quad, t = dotted q ∧ a = [q.1.toNat, q.2.1.toNat, q.2.2.1.toNat, q.2.2.2.toNat] := by
  constructor
  · intro h
    unfold pton at h
    split at h
    · cases h
    · rename_i s hs
      have hS : Shape t s := by simpa using shape_run t [] (s := {}) ⟨rfl, (fun _ h => nomatch h), Nat.zero_le _, fun _ => rfl, Nat.zero_le _⟩ hs
      split at h
      · cases h
      · rename_i hl
        cases h
        have h3 := hS.len
        have hsaw : s.saw = true := by
          cases hs : s.saw with
          | true => rfl
          | false => rw [hs] at hl; simp at hl; omega
        have h3' : s.xs.length = 3 := by rw [hsaw] at hl; simp at hl; omega
        match hx : s.xs, h3' with
        | [x, y, z], _ =>
          have hle := hS.xs
          have hc := hS.cur
          have ht := hS.text
          rw [hx] at hle ht
          rw [hsaw] at ht
          simp only [List.mem_cons, List.not_mem_nil, or_false, forall_eq_or_imp, forall_eq] at hle
          have e : ∀ n, n ≤ 255 → (n.toUInt8 : Byte).toNat = n := by
            intro n hn
            simp only [Nat.toUInt8, UInt8.toNat_ofNat']
            omega
          refine ⟨(x.toUInt8, y.toUInt8, z.toUInt8, s.cur.toUInt8), ?_, ?_⟩
          · rw [ht]
            simp only [dotted, e x hle.1, e y hle.2.1, e z hle.2.2, e _ hc]
            simp
          · simp only [e x hle.1, e y hle.2.1, e z hle.2.2, e _ hc]
            rfl
  · rintro ⟨q, rfl, rfl⟩
    exact pton_dotted q

theorem ntop_quad (q : Quad) : ntop [q.1.toNat, q.2.1.toNat, q.2.2.1.toNat, q.2.2.2.toNat] = dotted q := by
  simp [ntop, dotted, List.intercalate, List.intersperse]

theorem dotted_length (q : Quad) : (dotted q).length ≤ 15 := OptValue.nip_length _ _ (OptValue.nip_dotted q)

theorem makeSubnet_iff (t r : List Byte) : makeSubnet t = some r ↔ r = t ∧ ∃ q, t = dotted q := by
  unfold makeSubnet
  rw [Option.map_eq_some_iff]
  constructor
  · rintro ⟨a, h, rfl⟩
    obtain ⟨q, rfl, rfl⟩ := (pton_iff t a).mp h
    exact ⟨ntop_quad q, q, rfl⟩
  · rintro ⟨rfl, q, rfl⟩
    exact ⟨_, pton_dotted q, ntop_quad q⟩

theorem makeAddress_iff (pre : Option (List Byte)) (suf r : List Byte) :
    makeAddress pre suf = some r ↔ r = pre.getD (bytes "192.168.77") ++ ch '.' :: suf ∧ ∃ q, r = dotted q := by
  unfold makeAddress
  constructor
  · intro h
    simp only at h
    split at h
    · cases h
    · obtain ⟨rfl, h2⟩ := (makeSubnet_iff _ _).mp h
      exact ⟨rfl, h2⟩
  · rintro ⟨rfl, q, hq⟩
    simp only
    rw [if_neg (by rw [hq]; have := dotted_length q; omega)]
    exact (makeSubnet_iff _ _).mpr ⟨rfl, q, hq⟩

/-! ### What is done -/

theorem iface_app (u v : List (Act × Bool)) (i : Option (List (List Byte))) : iface (u ++ v) i = iface v (iface u i) := by
  induction u generalizing i with
  | nil => rfl
  | cons x u ih =>
    obtain ⟨a, b⟩ := x
    cases a <;> cases b <;> simp only [List.cons_append, iface, ih]

/-- Every report of a local address in the log is of the only address of the interface at that time. -/
def Sound (l : List (Act × Bool)) : Prop := ∀ u a r v, l = u ++ (Act.send (bytes "L:" ++ a), r) :: v → ∃ m, onIface u = some [a ++ ch '/' :: m]

theorem sound_nil : Sound [] := by
  intro u a r v h
  cases u <;> cases h

theorem sound_snoc {l : List (Act × Bool)} (h : Sound l) (x : Act) (r : Bool) (hx : ∀ a, x = .send (bytes "L:" ++ a) → ∃ m, onIface l = some [a ++ ch '/' :: m]) : Sound (l ++ [(x, r)]) := by
  intro u a r' v e
  rcases List.eq_nil_or_concat v with rfl | ⟨w, y, rfl⟩
  · obtain ⟨rfl, e2⟩ := List.append_inj' e rfl
    simp only [List.cons.injEq, Prod.mk.injEq, and_true] at e2
    exact hx a e2.1
  · rw [List.concat_eq_append, ← List.cons_append, ← List.append_assoc] at e
    obtain ⟨e1, -⟩ := List.append_inj' e rfl
    exact h u a r' w e1

/-- What the program knows of its interface once it has set an address: it has that address only. -/
def Has (h : H) (a : List Byte) : Prop := onIface h.log = some [a]

theorem on_snoc (l : List (Act × Bool)) (x : Act × Bool) : onIface (l ++ [x]) = iface [x] (onIface l) := iface_app l [x] none

theorem act_log (E : Env) (x : Act) (h : H) : (act E x h).2.log = h.log ++ [(x, (act E x h).1)] := rfl

theorem setAddr_sound {E : Env} {a : List Byte} {h : H} (hs : Sound h.log) : Sound (setAddr E a h).2.log ∧ ((setAddr E a h).1 = true → Has (setAddr E a h).2 a) ∧ (setAddr E a h).2.addr = h.addr := by
  unfold setAddr
  simp only
  have h1 : Sound (act E .flush h).2.log := by
    rw [act_log]; exact sound_snoc hs _ _ (fun _ e => nomatch e)
  split
  · exact ⟨h1, (fun e => nomatch e), rfl⟩
  · rename_i hr
    have hr : (act E .flush h).1 = true := by simpa using hr
    refine ⟨?_, ?_, rfl⟩
    · rw [act_log]; exact sound_snoc h1 _ _ (fun _ e => nomatch e)
    · intro h2
      unfold Has
      rw [act_log, on_snoc, act_log, on_snoc, hr, h2]
      rfl

theorem iface_send (l : List Byte) (r : Bool) (i : Option (List (List Byte))) : iface [(.send l, r)] i = i := by
  cases r <;> rfl

theorem send_sound {E : Env} {l : List Byte} {h : H} (hs : Sound h.log) (hl : ∀ a, l = bytes "L:" ++ a → ∃ m, onIface h.log = some [a ++ ch '/' :: m]) :
    Sound (send E l h).log ∧ onIface (send E l h).log = onIface h.log ∧ (send E l h).addr = h.addr := by
  unfold send
  split
  · exact ⟨hs, rfl, rfl⟩
  · have : Sound (h.log ++ [(.send l, (act E (.send l) h).1)]) := sound_snoc hs _ _ (by intro a e; cases e; exact hl a rfl)
    have h2 : onIface (h.log ++ [(.send l, (act E (.send l) h).1)]) = onIface h.log := by rw [on_snoc, iface_send]
    simp only
    split
    · exact ⟨this, h2, rfl⟩
    · exact ⟨this, h2, rfl⟩

theorem sends_sound {E : Env} {a m : List Byte} : ∀ (ls : List (List Byte)) (h : H), Sound h.log → Has h (a ++ ch '/' :: m) → (∀ l ∈ ls, ∀ b, l = bytes "L:" ++ b → b = a) →
    Sound (ls.foldl (fun h l => send E l h) h).log ∧ Has (ls.foldl (fun h l => send E l h) h) (a ++ ch '/' :: m) ∧ (ls.foldl (fun h l => send E l h) h).addr = h.addr
  | [], h, hs, hh, _ => ⟨hs, hh, rfl⟩
  | l :: ls, h, hs, hh, hl => by
    obtain ⟨h1, h2, h3⟩ := send_sound (E := E) (l := l) hs (fun b e => ⟨m, by rw [hl l List.mem_cons_self b e]; exact hh⟩)
    obtain ⟨k1, k2, k3⟩ := sends_sound ls (send E l h) h1 (by unfold Has; rw [h2]; exact hh) fun x hx => hl x (List.mem_cons_of_mem _ hx)
    exact ⟨k1, k2, k3.trans h3⟩

theorem lines_L {a m : List Byte} {dns gateway : List (List Byte)} : ∀ l ∈ leaseLines a m dns gateway, ∀ b, l = bytes "L:" ++ b → b = a := by
  intro l hl b e
  subst e
  have e1 : bytes "L:" = [ch 'L', ch ':'] := rfl
  have e2 : bytes "S:" = [ch 'S', ch ':'] := rfl
  have e3 : bytes "D:" = [ch 'D', ch ':'] := rfl
  have e4 : bytes "G:" = [ch 'G', ch ':'] := rfl
  simp only [leaseLines, List.mem_append, List.mem_cons, List.not_mem_nil, or_false, List.mem_map] at hl
  rcases hl with ((h | h) | ⟨d, -, h⟩) | ⟨d, -, h⟩
  · exact List.append_cancel_left h
  · rw [e1, e2] at h; exact absurd (List.cons.inj h).1 (by decide)
  · rw [e1, e3] at h; exact absurd (List.cons.inj h).1 (by decide)
  · rw [e1, e4] at h; exact absurd (List.cons.inj h).1 (by decide)

theorem lease_sound {E : Env} {addr : Option (List Byte)} {subnet dns gateway : List (List Byte)} {h : H} (hs : Sound h.log) : Sound (lease E addr subnet dns gateway h).log := by
  unfold lease
  split
  · exact hs
  · rename_i a
    simp only
    split
    · exact hs
    · obtain ⟨h1, h2, h3⟩ := setAddr_sound (E := E) (a := a ++ ch '/' :: subnet.headD (bytes "24")) (h := { h with addr := some (a ++ ch '/' :: subnet.headD (bytes "24")) }) hs
      split
      · exact h1
      · rename_i hr
        exact (sends_sound _ _ h1 (h2 (by simpa using hr)) lines_L).1

theorem step_sound {E : Env} {server : Bool} {h : H} (hs : Sound h.log) (e : Ev) : Sound (step E server h e).log := by
  cases e with
  | lease addr subnet dns gateway =>
    simp only [step]
    split
    · exact hs
    · exact lease_sound hs
  | noLease =>
    simp only [step]
    split <;> exact hs
  | given mac ip =>
    simp only [step]
    split
    · refine (send_sound hs ?_).1
      intro a e
      exact absurd (List.cons.inj e).1 (by decide)
    · exact hs
  | signal => exact hs

theorem run_sound {E : Env} {server : Bool} : ∀ (es : List Ev) {h : H}, Sound h.log → Sound (run E server h es).log
  | [], _, hs => hs
  | e :: es, _, hs => run_sound es (step_sound hs e)

theorem new_sound {E : Env} {c : Conf} {h : H} (hs : Sound h.log) : Sound (new E c h).2.2.log ∧
    ∀ a, c.server = some a → 0 ≤ (new E c h).1 → onIface (new E c h).2.2.log = some [a.loc ++ ch '/' :: a.subnet] := by
  unfold new
  split
  · rename_i hc
    simp only [act_log]
    refine ⟨sound_snoc hs _ _ (fun _ e => nomatch e), ?_⟩
    rw [hc]
    intro a e; cases e
  · rename_i a hc
    obtain ⟨h1, h2, h3⟩ := setAddr_sound (E := E) (a := a.loc ++ ch '/' :: a.subnet) (h := { h with addr := some (a.loc ++ ch '/' :: a.subnet) }) hs
    simp only
    split
    · refine ⟨h1, fun b _ h0 => ?_⟩
      change 0 ≤ -EFAULT at h0
      exact absurd h0 (by decide)
    · rename_i hr
      simp only [act_log]
      refine ⟨sound_snoc h1 _ _ (fun _ e => nomatch e), ?_⟩
      intro b e _
      rw [hc] at e; cases e
      rw [on_snoc]
      have := h2 (by simpa using hr)
      unfold Has at this
      rw [this]
      generalize (act E Act.make _).1 = b
      cases b <;> rfl

theorem loop_sound {E : Env} {c : Conf} {es : List Ev} {h : H} (hs : Sound h.log) (hh : ∀ a, c.server = some a → onIface h.log = some [a.loc ++ ch '/' :: a.subnet]) :
    Sound (loop E c es h).2.log := by
  have h1 : Sound (act E .start h).2.log := by rw [act_log]; exact sound_snoc hs _ _ (fun _ e => nomatch e)
  unfold loop
  simp only
  split
  · exact h1
  · split
    · exact run_sound es h1
    · rename_i a hc
      refine run_sound es (send_sound h1 ?_).1
      intro b e
      obtain rfl := List.append_cancel_left e
      refine ⟨a.subnet, ?_⟩
      rw [act_log, on_snoc, ← hh a hc]
      cases (act E .start h).1 <;> rfl

theorem free_sound {E : Env} {c : Conf} {made : Bool} {h : H} (hs : Sound h.log) : Sound (free E c made h).log := by
  have h1 : Sound (if made = true then (act E .stop h).2 else h).log := by
    split
    · rw [act_log]; exact sound_snoc hs _ _ (fun _ e => nomatch e)
    · exact hs
  unfold free
  simp only
  generalize (if made = true then (act E .stop h).2 else h) = k at *
  split
  · rw [act_log]; exact sound_snoc h1 _ _ (fun _ e => nomatch e)
  · exact h1

theorem main_sound (E : Env) (c : Conf) (es : List Ev) : Sound (main E c es).2 := by
  unfold main
  obtain ⟨h1, h2⟩ := new_sound (E := E) (c := c) (h := { comm := 0 ≤ c.comm }) sound_nil
  simp only
  split
  · exact free_sound h1
  · rename_i hr
    exact free_sound (loop_sound h1 fun a ha => h2 a ha (by omega))

/-! ### What is reported last -/

theorem lastSent_snoc (k : List Byte) (l : List (Act × Bool)) (x : Act × Bool) : lastSent k (l ++ [x]) = (sentAs k x).or (lastSent k l) := by
  unfold lastSent
  rw [List.reverse_append, List.reverse_singleton, List.singleton_append, List.findSome?_cons]
  cases sentAs k x <;> rfl

theorem send_open {E : Env} {l : List Byte} {h : H} (hc : (send E l h).comm = true) : h.comm = true ∧ (send E l h).log = h.log ++ [(.send l, true)] ∧ (send E l h).addr = h.addr ∧ (send E l h).quit = h.quit := by
  unfold send at hc ⊢
  cases h0 : h.comm with
  | false =>
    rw [if_pos (by simp [h0]), h0] at hc
    cases hc
  | true =>
    rw [if_neg (by simp [h0])] at hc ⊢
    cases hr : (act E (.send l) h).1 with
    | false =>
      simp only [hr, Bool.false_eq_true, if_false] at hc
    | true =>
      simp only [hr, if_true]
      refine ⟨True.intro, ?_, rfl, rfl⟩
      rw [act_log, hr]

theorem sends_open {E : Env} : ∀ (ls : List (List Byte)) {h : H}, (ls.foldl (fun h l => send E l h) h).comm = true →
    h.comm = true ∧ (ls.foldl (fun h l => send E l h) h).log = h.log ++ ls.map (fun l => (.send l, true)) ∧ (ls.foldl (fun h l => send E l h) h).quit = h.quit
  | [], h, hc => ⟨hc, by simp, rfl⟩
  | l :: ls, h, hc => by
    obtain ⟨h1, h2, h3⟩ := sends_open ls hc
    obtain ⟨k1, k2, -, k4⟩ := send_open h1
    refine ⟨k1, ?_, h3.trans k4⟩
    rw [List.foldl_cons, h2, k2]
    simp

/-- What the program has done is what the last lease asks for. -/
structure Cur (h : H) (x : Option (List Byte × List Byte)) : Prop where
  addr : h.addr = x.map fun p => p.1 ++ ch '/' :: p.2
  on : ∀ p, x = some p → onIface h.log = some [p.1 ++ ch '/' :: p.2]
  told : h.comm = true → lastSent (bytes "L:") h.log = x.map (·.1) ∧ lastSent (bytes "S:") h.log = x.map (·.2)

theorem sent_L (a : List Byte) : sentAs (bytes "L:") (.send (bytes "L:" ++ a), true) = some a := by
  simp only [sentAs]
  rw [if_pos (by rw [List.take_left]), List.drop_left]

theorem sent_S (a : List Byte) : sentAs (bytes "S:") (.send (bytes "S:" ++ a), true) = some a := by
  simp only [sentAs]
  rw [if_pos (by rw [List.take_left]), List.drop_left]

theorem sent_other {k j : List Byte} (a : List Byte) (h : k.length = 2) (hj : j.length = 2) (hk : j ≠ k) : sentAs k (.send (j ++ a), true) = none := by
  simp only [sentAs]
  rw [if_neg]
  rw [h, ← hj, List.take_left]
  exact hk

theorem lines_last {l : List (Act × Bool)} {a m : List Byte} {dns gateway : List (List Byte)} :
    lastSent (bytes "L:") (l ++ (leaseLines a m dns gateway).map fun x => (Act.send x, true)) = some a ∧
    lastSent (bytes "S:") (l ++ (leaseLines a m dns gateway).map fun x => (Act.send x, true)) = some m := by
  have hl : bytes "L:" = [ch 'L', ch ':'] := rfl
  have hD : ∀ (z : List (Act × Bool)) (d : Option (List Byte)) (k : List Byte), k.length = 2 → bytes "D:" ≠ k →
      lastSent k (z ++ (d.toList.map fun d => bytes "D:" ++ d).map fun x => (Act.send x, true)) = lastSent k z := by
    intro z d k hk hne
    cases d with
    | none => simp
    | some d =>
      simp only [Option.toList_some, List.map_cons, List.map_nil]
      rw [lastSent_snoc, sent_other d hk rfl hne]; rfl
  have hG : ∀ (z : List (Act × Bool)) (d : Option (List Byte)) (k : List Byte), k.length = 2 → bytes "G:" ≠ k →
      lastSent k (z ++ (d.toList.map fun d => bytes "G:" ++ d).map fun x => (Act.send x, true)) = lastSent k z := by
    intro z d k hk hne
    cases d with
    | none => simp
    | some d =>
      simp only [Option.toList_some, List.map_cons, List.map_nil]
      rw [lastSent_snoc, sent_other d hk rfl hne]; rfl
  unfold leaseLines
  simp only [List.map_append, ← List.append_assoc]
  constructor
  · rw [hG _ _ _ rfl (by decide), hD _ _ _ rfl (by decide)]
    simp only [List.map_cons, List.map_nil]
    rw [show ∀ (x y : Act × Bool), l ++ [x, y] = (l ++ [x]) ++ [y] by simp, lastSent_snoc, sent_other _ rfl rfl (by decide), lastSent_snoc, sent_L]
    rfl
  · rw [hG _ _ _ rfl (by decide), hD _ _ _ rfl (by decide)]
    simp only [List.map_cons, List.map_nil]
    rw [show ∀ (x y : Act × Bool), l ++ [x, y] = (l ++ [x]) ++ [y] by simp, lastSent_snoc, sent_S]
    rfl

theorem sends_quit {E : Env} : ∀ (ls : List (List Byte)) {h : H}, (ls.foldl (fun h l => send E l h) h).quit = h.quit
  | [], _ => rfl
  | l :: ls, h => by
    rw [List.foldl_cons, sends_quit ls]
    unfold send
    split
    · rfl
    · simp only
      split <;> rfl

theorem sends_addr {E : Env} : ∀ (ls : List (List Byte)) {h : H}, (ls.foldl (fun h l => send E l h) h).addr = h.addr
  | [], _ => rfl
  | l :: ls, h => by
    rw [List.foldl_cons, sends_addr ls]
    unfold send
    split
    · rfl
    · simp only
      split <;> rfl

theorem sends_on {E : Env} : ∀ (ls : List (List Byte)) {h : H}, onIface (ls.foldl (fun h l => send E l h) h).log = onIface h.log
  | [], _ => rfl
  | l :: ls, h => by
    rw [List.foldl_cons, sends_on ls]
    unfold send
    split
    · rfl
    · simp only
      have h2 : onIface (h.log ++ [(.send l, (act E (.send l) h).1)]) = onIface h.log := by rw [on_snoc, iface_send]
      split
      · exact h2
      · exact h2

theorem setAddr_addr (E : Env) (a : List Byte) (h : H) : (setAddr E a h).2.addr = h.addr := by
  unfold setAddr
  simp only
  split <;> rfl

theorem setAddr_on {E : Env} {a : List Byte} {h : H} (hr : (setAddr E a h).1 = true) : onIface (setAddr E a h).2.log = some [a] ∧ (setAddr E a h).2.quit = h.quit := by
  unfold setAddr at hr ⊢
  simp only at hr ⊢
  split at hr
  · cases hr
  · rename_i h1
    rw [if_neg h1]
    have h1 : (act E .flush h).1 = true := by simpa using h1
    rw [act_log, on_snoc, act_log, on_snoc, h1, hr]
    exact ⟨rfl, rfl⟩

theorem step_quit {E : Env} {server : Bool} {h : H} (hq : h.quit = true) (e : Ev) : (step E server h e).quit = true := by
  cases e with
  | lease addr subnet dns gateway =>
    simp only [step]
    split
    · exact hq
    · unfold lease
      split
      · rfl
      · simp only
        split
        · exact hq
        · split
          · rfl
          · rename_i hr
            rw [sends_quit, (setAddr_on (by simpa using hr)).2]
            exact hq
  | noLease =>
    simp only [step]
    split
    · exact hq
    · rfl
  | given mac ip =>
    simp only [step]
    split
    · exact (sends_quit [_]).trans hq
    · exact hq
  | signal => rfl

theorem run_quit {E : Env} {server : Bool} : ∀ (es : List Ev) {h : H}, h.quit = true → (run E server h es).quit = true
  | [], _, hq => hq
  | e :: es, _, hq => run_quit es (step_quit hq e)

theorem slash_inj {a b m n : List Byte} (ha : ch '/' ∉ a) (hb : ch '/' ∉ b) (h : a ++ ch '/' :: m = b ++ ch '/' :: n) : a = b ∧ m = n := by
  induction a generalizing b with
  | nil =>
    cases b with
    | nil => exact ⟨rfl, (List.cons.inj h).2⟩
    | cons y b => exact absurd (List.mem_cons.mpr (.inl (List.cons.inj h).1)) hb
  | cons x a ih =>
    cases b with
    | nil => exact absurd (List.mem_cons.mpr (.inl (List.cons.inj h).1.symm)) ha
    | cons y b =>
      obtain ⟨h1, h2⟩ := List.cons.inj h
      obtain ⟨h3, h4⟩ := ih (fun e => ha (List.mem_cons.mpr (.inr e))) (fun e => hb (List.mem_cons.mpr (.inr e))) h2
      exact ⟨by rw [h1, h3], h4⟩

theorem cur_run {E : Env} : ∀ (es : List Ev) {h : H} {x : Option (List Byte × List Byte)}, (∀ e ∈ es, e.plain) → (∀ p, x = some p → ch '/' ∉ p.1) → Cur h x → (run E false h es).quit = false → Cur (run E false h es) (lastLease es x)
  | [], _, _, _, _, hc, _ => hc
  | e :: es, h, x, hp, hx, hc, hq => by
    have hp' : ∀ e ∈ es, e.plain := fun e he => hp e (List.mem_cons.mpr (.inr he))
    have hq0 : (step E false h e).quit = false := by
      cases h0 : (step E false h e).quit with
      | false => rfl
      | true =>
        have := run_quit (E := E) (server := false) es h0
        rw [show run E false (step E false h e) es = run E false h (e :: es) from rfl, hq] at this
        cases this
    cases e with
    | noLease => cases hq0
    | signal => cases hq0
    | given mac ip => exact cur_run es hp' hx hc hq
    | lease addr subnet dns gateway =>
      cases addr with
      | none => cases hq0
      | some a =>
        have ha : ch '/' ∉ a := hp _ (List.mem_cons.mpr (.inl rfl))
        refine cur_run es (x := some (a, subnet.headD (bytes "24"))) hp' (fun p e => by cases e; exact ha) ?_ hq
        generalize hm : subnet.headD (bytes "24") = m at *
        have hq1 : (lease E (some a) subnet dns gateway h).quit = false := hq0
        change Cur (lease E (some a) subnet dns gateway h) _
        unfold lease at hq1 ⊢
        simp only [hm] at hq1 ⊢
        split at hq1
        · rename_i hsame
          rw [if_pos hsame]
          cases x with
          | none => rw [hc.addr] at hsame; cases hsame
          | some p =>
            rw [hc.addr] at hsame
            obtain ⟨h1, h2⟩ := slash_inj (hx p rfl) ha (Option.some.inj hsame)
            obtain ⟨p1, p2⟩ := p
            cases h1; cases h2
            exact hc
        · rename_i hnew
          rw [if_neg hnew]
          split at hq1
          · cases hq1
          · rename_i hr
            rw [if_neg hr]
            have hr := setAddr_on (E := E) (a := a ++ ch '/' :: m) (by simpa using hr)
            refine ⟨?_, ?_, ?_⟩
            · rw [sends_addr, setAddr_addr]; rfl
            · intro p hp; cases hp
              rw [sends_on]; exact hr.1
            · intro hc
              obtain ⟨-, h2, -⟩ := sends_open _ hc
              rw [h2]
              exact lines_last

/-! ### The end -/

/-- The interface was not touched if no address was set. -/
def Clean (h : H) : Prop := h.addr = none → ∀ x ∈ h.log, ¬ touches x.1

theorem act_clean {E : Env} {x : Act} {h : H} (hc : Clean h) (hx : ¬ touches x) : Clean (act E x h).2 := by
  intro h0 y hy
  rw [act_log] at hy
  rcases List.mem_append.mp hy with hy | hy
  · exact hc h0 y hy
  · rw [List.mem_singleton.mp hy]; exact hx

theorem some_clean {h : H} {a : List Byte} (e : h.addr = some a) : Clean h := by
  intro h0; rw [h0] at e; cases e

theorem send_clean {E : Env} {l : List Byte} {h : H} (hc : Clean h) : Clean (send E l h) := by
  unfold send
  split
  · exact hc
  · have : Clean (act E (.send l) h).2 := act_clean hc (fun e => e)
    simp only
    split
    · exact this
    · exact this

theorem sends_clean {E : Env} : ∀ (ls : List (List Byte)) {h : H}, Clean h → Clean (ls.foldl (fun h l => send E l h) h)
  | [], _, hc => hc
  | _ :: ls, _, hc => sends_clean ls (send_clean hc)

theorem step_clean {E : Env} {server : Bool} {h : H} (hc : Clean h) (e : Ev) : Clean (step E server h e) := by
  cases e with
  | lease addr subnet dns gateway =>
    simp only [step]
    split
    · exact hc
    · unfold lease
      split
      · exact hc
      · rename_i a
        simp only
        split
        · exact hc
        · have h1 := setAddr_addr E (a ++ ch '/' :: subnet.headD (bytes "24")) { h with addr := some (a ++ ch '/' :: subnet.headD (bytes "24")) }
          split
          · exact some_clean h1
          · exact sends_clean _ (some_clean h1)
  | noLease =>
    simp only [step]
    split <;> exact hc
  | given mac ip =>
    simp only [step]
    split
    · exact send_clean hc
    · exact hc
  | signal => exact hc

theorem run_clean {E : Env} {server : Bool} : ∀ (es : List Ev) {h : H}, Clean h → Clean (run E server h es)
  | [], _, hs => hs
  | e :: es, _, hs => run_clean es (step_clean hs e)

theorem new_clean {E : Env} {c : Conf} {h : H} (hs : Clean h) : Clean (new E c h).2.2 ∧ (c.server = none → (new E c h).2.1 = false → (new E c h).2.2.addr = h.addr) := by
  unfold new
  split
  · rename_i hc
    exact ⟨act_clean hs (fun e => e), fun _ _ => rfl⟩
  · rename_i a hc
    refine ⟨?_, fun e => by rw [hc] at e; cases e⟩
    have h1 := setAddr_addr E (a.loc ++ ch '/' :: a.subnet) { h with addr := some (a.loc ++ ch '/' :: a.subnet) }
    simp only
    split
    · exact some_clean h1
    · exact act_clean (some_clean h1) (fun e => e)

theorem loop_clean {E : Env} {c : Conf} {es : List Ev} {h : H} (hs : Clean h) : Clean (loop E c es h).2 := by
  have h1 : Clean (act E .start h).2 := act_clean hs (fun e => e)
  unfold loop
  simp only
  split
  · exact h1
  · split
    · exact run_clean es h1
    · exact run_clean es (send_clean h1)

theorem free_end {E : Env} {c : Conf} {made : Bool} {h : H} (hs : Clean h) (hm : c.server = none → made = false → h.addr = none) :
    (∀ x ∈ (free E c made h).log, ¬ touches x.1) ∨ ∃ r, (free E c made h).log = (if made then (act E .stop h).2 else h).log ++ [(Act.flush, r)] := by
  have h1 : Clean (if made = true then (act E .stop h).2 else h) := by
    split
    · exact act_clean hs (fun e => e)
    · exact hs
  have h2 : (if made = true then (act E .stop h).2 else h).addr = h.addr := by split <;> rfl
  unfold free
  simp only
  generalize (if made = true then (act E .stop h).2 else h) = k at *
  split
  · exact Or.inr ⟨_, act_log _ _ _⟩
  · rename_i hn
    refine Or.inl (h1 ?_)
    rw [h2] at hn ⊢
    cases ha : h.addr with
    | none => rfl
    | some a =>
      rw [ha] at hn hm
      simp only [Option.isSome_some, true_and, not_or, Bool.not_eq_true, Option.isSome_eq_false_iff, Option.isNone_iff_eq_none] at hn
      exact hm hn.1 hn.2

end Verif.Helper
