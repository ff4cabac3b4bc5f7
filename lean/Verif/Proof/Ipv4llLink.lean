import Verif.Proof.Ipv4llStep
/-!
# Several link-local clients on one link
-/
namespace Verif.Ipv4ll
open Verif.C

/-- A client that has begun to probe listens. -/
def Listens (c : Ll) : Prop := c.watch = false → c.state ≠ .announce ∧ c.state ≠ .monitor ∧ c.state ≠ .defend ∧ ∀ due, c.timer ≠ some (.probe, due)

theorem trans_listens {c c' : Ll} {now : Nat} {e : Env} {op : Op} {o : List Out} (h : Trans c now e op c' o) (hl : Listens c) (ho : e.opens = true) (hop : op ≠ .hup) : Listens c' := by
  cases h with
  | started => intro _; exact ⟨by simp, by simp, by simp, by simp⟩
  | stopped => intro _; exact ⟨by simp, by simp, by simp, by simp⟩
  | first => intro h; rw [ho] at h; cases h
  | again due hs ht => intro h; exact absurd ht ((hl h).2.2.2 due)
  | announce due hs ht => intro h; exact absurd ht ((hl h).2.2.2 due)
  | twice due hs ht => intro h; exact absurd hs (hl h).1
  | got due hs ht => intro h; exact absurd hs (hl h).1
  | calm due hs ht => intro h; exact absurd hs (hl h).2.2.1
  | unheard => exact hl
  | ignored => exact hl
  | asked f hw => intro h; rw [show ({ c with conflicts := (c.conflicts + 1) % 256 } : Ll).watch = c.watch from rfl, hw] at h; cases h
  | defended f hw => intro h; rw [show ({ c with conflicts := (c.conflicts + 1) % 256, state := .defend, timer := some (.defend, seconds now 10) } : Ll).watch = c.watch from rfl, hw] at h; cases h
  | lost f hw hs h1 =>
    intro _
    obtain ⟨-, -, -, r4, -⟩ := retired_ip c now e
    rw [r4]
    refine ⟨by simp, by simp, by simp, fun due => ?_⟩
    unfold retired
    dsimp only
    split <;> simp
  | conflict f hw hs h1 =>
    intro _
    obtain ⟨-, -, -, r4, -⟩ := retired_ip c now e
    rw [r4]
    refine ⟨by simp, by simp, by simp, fun due => ?_⟩
    unfold retired
    dsimp only
    split <;> simp
  | hup => exact absurd rfl hop

/-- The client is after the address, or has it, and listens. -/
def On (c : Ll) (x : Nat) : Prop := c.watch = true ∧ c.ip = x

/-- The address the client has. -/
def heldBy (c : Ll) : Option Nat := if c.state = .monitor ∨ c.state = .defend then some c.ip else none

theorem heldOuts_retired (a : Option Nat) (c : Ll) : Spec.heldOuts a (retiredOut c) = a := by
  unfold retiredOut
  split <;> rfl

/-- What the outputs say about the address is what the state says. -/
theorem trans_held {c c' : Ll} {now : Nat} {e : Env} {op : Op} {o : List Out} (g : Good c) (h : Trans c now e op c' o) : Spec.heldStep (heldBy c) (now, op, o) = heldBy c' := by
  cases h with
  | started => rfl
  | stopped => rfl
  | first due ht =>
    have : heldBy c = none := by
      cases g.shape with
      | wait hs => unfold heldBy; rcases hs with hs | hs <;> simp [hs]
      | _ => simp_all
    rw [this]; rfl
  | again due hs => unfold heldBy; simp [hs]; rfl
  | announce due hs => unfold heldBy; simp [hs]; rfl
  | twice due hs => unfold heldBy; simp [hs]; rfl
  | got due hs => rfl
  | calm due hs => unfold heldBy; simp [hs]; rfl
  | unheard => rfl
  | ignored => rfl
  | asked => rfl
  | defended f hw hs => unfold heldBy; simp [hs]; rfl
  | lost =>
    obtain ⟨-, -, -, r4, -⟩ := retired_ip c now e
    simp only [Spec.heldStep, Spec.heldOuts, heldOuts_retired]
    unfold heldBy; simp [r4]
  | conflict f hw hs =>
    obtain ⟨-, -, -, r4, -⟩ := retired_ip c now e
    simp only [Spec.heldStep, heldOuts_retired]
    unfold heldBy; rcases hs with hs | hs <;> simp [r4, hs]
  | hup => rfl

/-- The client `j` is going to find out, before its next timer, that `i` is after its address or has it. -/
def Breaks (l : Link) (latency j i x : Nat) : Prop :=
  ((l.hosts j).ll.state = .probe ∨ (l.hosts j).ll.state = .announce) ∧ ∃ k due, (l.hosts j).ll.timer = some (k, due) ∧
    ((∃ f ∈ l.wire, f.src = j ∧ f.dst = i ∧ (Spec.Request (l.hosts j).ll.mac 0 x f.bytes ∨ Spec.Request (l.hosts j).ll.mac x x f.bytes) ∧ f.due + latency < due) ∨
      ∃ f ∈ l.wire, f.dst = j ∧ Spec.Claims x f.bytes ∧ f.due < due)

/-- The invariant of a link. -/
structure LinkOk (l : Link) (latency : Nat) : Prop where
  good : ∀ i < l.n, Good (l.hosts i).ll ∧ Listens (l.hosts i).ll ∧ (l.hosts i).ll.mac.length = 6
  addr : ∀ i < l.n, (l.hosts i).addr = heldBy (l.hosts i).ll
  late : ∀ f ∈ l.wire, l.now ≤ f.due
  pairs : ∀ i < l.n, ∀ j < l.n, i ≠ j → ∀ x, On (l.hosts i).ll x → On (l.hosts j).ll x → Breaks l latency j i x ∨ Breaks l latency i j x

theorem heed_addr (h : Host) (o : List Out) : (h.heed o).addr = Spec.heldOuts h.addr o ∧ (h.heed o).ll = h.ll := by
  induction o generalizing h with
  | nil => exact ⟨rfl, rfl⟩
  | cons x t ih => cases x <;> exact ih _

theorem frames_late {n i due : Nat} {o : List Out} {f : Flight} (h : f ∈ frames n i due o) : f.due = due := by
  induction o with
  | nil => cases h
  | cons x t ih =>
    cases x with
    | arp g =>
      rcases List.mem_append.mp h with h | h
      · obtain ⟨j, -, rfl⟩ := List.mem_map.mp h; rfl
      · exact ih h
    | available | lost | noLease => exact ih h

theorem mem_frames {n i j due : Nat} (g : List Byte) (hj : j < n) (hij : j ≠ i) : (⟨i, j, g, due⟩ : Flight) ∈ frames n i due [.arp g] := by
  refine List.mem_append.mpr (Or.inl (List.mem_map.mpr ⟨j, ?_, rfl⟩))
  simp [hj, hij]

theorem answer_late {h : Host} {may : Bool} {due : Nat} {f g : Flight} (hg : g ∈ kernelAnswer h may due f) : g.due = due := by
  unfold kernelAnswer at hg
  split at hg
  · cases hg
  · split at hg
    · simp only [List.mem_singleton] at hg; rw [hg]
    · cases hg

theorem leVal_app (l : List Byte) (x : Byte) : Wire.leVal (l ++ [x]) = Wire.leVal l + 256 ^ l.length * x.toNat := by
  induction l with
  | nil => simp [Wire.leVal]
  | cons y t ih =>
    simp only [List.cons_append, Wire.leVal, ih, List.length_cons, Nat.pow_succ, Nat.mul_add]
    rw [Nat.mul_comm (256 ^ t.length) 256, Nat.mul_assoc]
    omega

theorem native_be (l : List Byte) : Wire.native .be l = Wire.Spec.beVal l := by
  have key : ∀ l : List Byte, ∀ a, l.foldl (fun acc b => 256 * acc + b.toNat) a = Wire.leVal l.reverse + 256 ^ l.length * a := by
    intro l
    induction l with
    | nil => intro a; simp [Wire.leVal]
    | cons x t ih =>
      intro a
      rw [List.foldl_cons, ih, List.reverse_cons, leVal_app, List.length_reverse, List.length_cons, Nat.pow_succ, Nat.mul_add, Nat.mul_assoc]
      omega
  simp only [Wire.native, Wire.Spec.beVal, key]
  omega

/-- The kernel answers a probe for its address with a claim. -/
theorem answers_probe {h : Host} {may : Bool} {due x : Nat} {f : Flight} {mac : List Byte} (hm : h.ll.mac.length = 6) (ha : h.addr = some x) (hx : x < 2 ^ 32)
    (hf : Spec.Request mac 0 x f.bytes) : ∃ g ∈ kernelAnswer h may due f, g.dst = f.src ∧ Spec.Claims x g.bytes := by
  unfold kernelAnswer
  rw [ha]
  simp only [native_be, field_part _ 6 2 (by omega), field_part _ 24 4 (by omega), field_part _ 14 4 (by omega), request_kind hf, hf.target, hf.sender, true_or, and_self, if_true, List.mem_singleton]
  refine ⟨_, rfl, rfl, ?_⟩
  unfold Spec.Claims Spec.IsArp
  have e : Wire.layout .be 4 x = Options.Spec.digits 4 x := Dora.layout_htonl .be x
  have n1 := Dora.num_digits x hx
  have hd := Options.digits_length 4 x
  rw [e]
  match hmac : h.ll.mac, hm with
  | [m0, m1, m2, m3, m4, m5], _ =>
    match hdd : Options.Spec.digits 4 x, hd with
    | [a, b, c, d], _ =>
      rw [hdd] at n1
      exact ⟨Or.inr rfl, n1⟩

theorem act_hosts (l : Link) (latency i : Nat) (ll : Ll) (o : List Out) (j : Nat) :
    ((l.act latency i ll o).hosts j).ll = if j = i then ll else (l.hosts j).ll := by
  unfold Link.act
  dsimp only
  split
  · rw [(heed_addr _ _).2]
  · rfl

theorem act_addr (l : Link) (latency i : Nat) (ll : Ll) (o : List Out) (j : Nat) :
    ((l.act latency i ll o).hosts j).addr = if j = i then Spec.heldOuts (l.hosts i).addr o else (l.hosts j).addr := by
  unfold Link.act
  dsimp only
  split
  · rw [(heed_addr _ _).1]
  · rfl

theorem breaks_mono {l l' : Link} {D j i x : Nat} (hb : Breaks l D j i x) (hj : (l'.hosts j).ll = (l.hosts j).ll) (hw : ∀ f ∈ l.wire, f.dst = i ∨ f.dst = j → f ∈ l'.wire) : Breaks l' D j i x := by
  unfold Breaks
  rw [hj]
  obtain ⟨hs, k, due, ht, h | h⟩ := hb
  · obtain ⟨f, hf, h1, h2, h3⟩ := h
    exact ⟨hs, k, due, ht, Or.inl ⟨f, hw f hf (Or.inl h2), h1, h2, h3⟩⟩
  · obtain ⟨f, hf, h1, h3⟩ := h
    exact ⟨hs, k, due, ht, Or.inr ⟨f, hw f hf (Or.inr h1), h1, h3⟩⟩

theorem no_break {l : Link} {D j i x due : Nat} {k : Kind} (hl : ∀ f ∈ l.wire, l.now ≤ f.due) (ht : (l.hosts j).ll.timer = some (k, due)) (hd : due ≤ l.now) : ¬ Breaks l D j i x := by
  rintro ⟨-, k', due', ht', h⟩
  rw [ht] at ht'
  cases ht'
  rcases h with ⟨f, hf, -, -, -, h⟩ | ⟨f, hf, -, -, h⟩
  · have := hl f hf; omega
  · have := hl f hf; omega

theorem act_wire (l : Link) (D i : Nat) (c : Ll) (o : List Out) : (l.act D i c o).wire = l.wire ++ frames l.n i (l.now + D) o := rfl

/-- Preservation when the host `i` fires a timer. -/
theorem fire_ok {l : Link} {D i : Nat} {c' : Ll} {o : List Out} {e : Env} (hD : 2 * D < 1000) (ok : LinkOk l D) (hi : i < l.n) (he : Spec.Drawn e) (ho : e.opens = true)
    (h : Trans (l.hosts i).ll l.now e .fire c' o) : LinkOk (l.act D i c' o) D := by
  obtain ⟨gi, li, mi⟩ := ok.good i hi
  have gi' := trans_good gi he h
  have hip' := gi'.ip
  have mi' := (trans_same h).2
  have key : ∀ j < l.n, j ≠ i → ∀ x, On c' x → On (l.hosts j).ll x → Breaks (l.act D i c' o) D j i x ∨ Breaks (l.act D i c' o) D i j x := by
    intro j hj hji x on onj
    have hold : (∃ k due, (l.hosts i).ll.timer = some (k, due) ∧ due ≤ l.now) → On (l.hosts i).ll x → Breaks (l.act D i c' o) D j i x ∨ Breaks (l.act D i c' o) D i j x := by
      rintro ⟨k, due, ht, hd⟩ oni
      rcases ok.pairs i hi j hj (Ne.symm hji) x oni onj with hb | hb
      · refine Or.inl (breaks_mono hb ?_ (fun f hf _ => ?_))
        · rw [act_hosts, if_neg hji]
        · rw [act_wire]; exact List.mem_append.mpr (Or.inl hf)
      · exact absurd hb (no_break ok.late ht hd)
    cases h with
    | first due ht hd ha hr y hy =>
      right
      obtain ⟨-, rfl⟩ := on
      unfold Breaks
      rw [act_hosts, if_pos rfl, act_wire]
      refine ⟨Or.inl rfl, _, _, rfl, Or.inl ⟨⟨i, j, _, l.now + D⟩, List.mem_append.mpr (Or.inr (mem_frames _ hj hji)), rfl, rfl, Or.inl ?_, ?_⟩⟩
      · exact packet_parts _ mi (by decide) hip'
      · dsimp only; omega
    | again due hs ht hd => exact hold ⟨_, due, ht, hd⟩ on
    | announce due hs ht hd => exact hold ⟨_, due, ht, hd⟩ on
    | twice due hs ht hd => exact hold ⟨_, due, ht, hd⟩ on
    | got due hs ht hd => exact hold ⟨_, due, ht, hd⟩ on
    | calm due hs ht hd => exact hold ⟨_, due, ht, hd⟩ on
  refine ⟨?_, ?_, ?_, ?_⟩
  · intro j hj
    rw [act_hosts]
    split
    · exact ⟨gi', trans_listens h li ho (by simp), by rw [mi']; exact mi⟩
    · exact ok.good j hj
  · intro j hj
    rw [act_hosts, act_addr]
    split
    · rw [ok.addr i hi, ← trans_held gi h]; rfl
    · exact ok.addr j hj
  · intro f hf
    rcases List.mem_append.mp hf with hf | hf
    · exact ok.late f hf
    · rw [frames_late hf]; exact Nat.le_add_right _ _
  · intro a ha b hb hab x oa ob
    rw [act_hosts] at oa ob
    by_cases hai : a = i
    · subst hai
      rw [if_pos rfl] at oa
      rw [if_neg (Ne.symm hab)] at ob
      exact key b hb (Ne.symm hab) x oa ob
    · rw [if_neg hai] at oa
      by_cases hbi : b = i
      · subst hbi
        rw [if_pos rfl] at ob
        exact (key a ha hab x ob oa).symm
      · rw [if_neg hbi] at ob
        have hw : ∀ f ∈ l.wire, f ∈ (l.act D i c' o).wire := fun f hf => List.mem_append.mpr (Or.inl hf)
        rcases ok.pairs a ha b hb hab x oa ob with h | h
        · exact Or.inl (breaks_mono h (by rw [act_hosts, if_neg hbi]) (fun f hf _ => hw f hf))
        · exact Or.inr (breaks_mono h (by rw [act_hosts, if_neg hai]) (fun f hf _ => hw f hf))

/-- Preservation when the user starts or stops the host `i`. -/
theorem user_ok {l : Link} {D i : Nat} {c' : Ll} {o : List Out} {e : Env} {op : Op} (ok : LinkOk l D) (hi : i < l.n) (he : Spec.Drawn e) (ho : e.opens = true)
    (hop : op = .start ∨ op = .stop) (h : Trans (l.hosts i).ll l.now e op c' o) : LinkOk ((l.act D i c' o).bare i) D := by
  obtain ⟨gi, li, mi⟩ := ok.good i hi
  have gi' := trans_good gi he h
  have mi' := (trans_same h).2
  have hll : ∀ j, (((l.act D i c' o).bare i).hosts j).ll = if j = i then c' else (l.hosts j).ll := by
    intro j
    rw [← act_hosts l D i c' o j]
    unfold Link.bare
    dsimp only
    by_cases hji : j = i
    · subst hji; rw [if_pos rfl]
    · rw [if_neg hji]
  have off : c'.watch = false ∧ heldBy c' = none := by
    rcases hop with rfl | rfl <;> cases h <;> exact ⟨rfl, rfl⟩
  refine ⟨?_, ?_, ?_, ?_⟩
  · intro j hj
    rw [hll]
    split
    · exact ⟨gi', trans_listens h li ho (by rcases hop with rfl | rfl <;> simp), by rw [mi']; exact mi⟩
    · exact ok.good j hj
  · intro j hj
    rw [hll]
    unfold Link.bare
    dsimp only
    by_cases hji : j = i
    · rw [if_pos hji, if_pos hji]; exact off.2.symm
    · rw [if_neg hji, if_neg hji, act_addr, if_neg hji]
      exact ok.addr j hj
  · intro f hf
    rcases List.mem_append.mp hf with hf | hf
    · exact ok.late f hf
    · rw [frames_late hf]; exact Nat.le_add_right _ _
  · intro a ha b hb hab x oa ob
    rw [hll] at oa ob
    by_cases hai : a = i
    · rw [if_pos hai] at oa; rw [oa.1] at off; cases off.1
    · rw [if_neg hai] at oa
      by_cases hbi : b = i
      · rw [if_pos hbi] at ob; rw [ob.1] at off; cases off.1
      · rw [if_neg hbi] at ob
        have hw : ∀ f ∈ l.wire, f ∈ ((l.act D i c' o).bare i).wire := fun f hf => List.mem_append.mpr (Or.inl hf)
        rcases ok.pairs a ha b hb hab x oa ob with h | h
        · exact Or.inl (breaks_mono h (by rw [hll, if_neg hbi]) (fun f hf _ => hw f hf))
        · exact Or.inr (breaks_mono h (by rw [hll, if_neg hai]) (fun f hf _ => hw f hf))

theorem mem_erase {α : Type} {l : List α} {k : Nat} {f g : α} (hk : l[k]? = some f) (hg : g ∈ l) : g = f ∨ g ∈ l.eraseIdx k := by
  induction l generalizing k with
  | nil => cases hg
  | cons x t ih =>
    cases k with
    | zero =>
      simp only [List.getElem?_cons_zero, Option.some.injEq] at hk
      rcases List.mem_cons.mp hg with h | h
      · exact Or.inl (h.trans hk)
      · exact Or.inr h
    | succ k =>
      rw [List.getElem?_cons_succ] at hk
      rcases List.mem_cons.mp hg with h | h
      · subst h; exact Or.inr List.mem_cons_self
      · rcases ih hk h with h | h
        · exact Or.inl h
        · exact Or.inr (List.mem_cons_of_mem _ h)

/-- Preservation when a frame arrives at a host. -/
theorem deliver_ok {l : Link} {D k : Nat} {f : Flight} {may : Bool} {c' : Ll} {o : List Out} {e : Env} (ok : LinkOk l D) (hk : l.wire[k]? = some f) (hi : f.dst < l.n)
    (he : Spec.Drawn e) (ho : e.opens = true) (h : Trans (l.hosts f.dst).ll l.now e (.recv f.bytes) c' o) :
    LinkOk (({ l with wire := l.wire.eraseIdx k ++ kernelAnswer (l.hosts f.dst) may (l.now + D) f } : Link).act D f.dst c' o) D := by
  obtain ⟨gi, li, mi⟩ := ok.good f.dst hi
  have gi' := trans_good gi he h
  have mi' := (trans_same h).2
  have hlate : l.now ≤ f.due := ok.late f (List.mem_of_getElem? hk)
  generalize hl' : (({ l with wire := l.wire.eraseIdx k ++ kernelAnswer (l.hosts f.dst) may (l.now + D) f } : Link).act D f.dst c' o) = l'
  have hll : ∀ j, (l'.hosts j).ll = if j = f.dst then c' else (l.hosts j).ll := by
    intro j; rw [← hl', act_hosts]
  have haddr : ∀ j, (l'.hosts j).addr = if j = f.dst then Spec.heldOuts (l.hosts f.dst).addr o else (l.hosts j).addr := by
    intro j; rw [← hl', act_addr]
  have hwire : l'.wire = (l.wire.eraseIdx k ++ kernelAnswer (l.hosts f.dst) may (l.now + D) f) ++ frames l.n f.dst (l.now + D) o := by rw [← hl']; rfl
  have hnow : l'.now = l.now := by rw [← hl']; rfl
  have hn : l'.n = l.n := by rw [← hl']; rfl
  clear hl'
  -- listening afterwards means listening before
  have onback : ∀ x, On c' x → On (l.hosts f.dst).ll x := by
    intro x on
    have r2 := (retired_ip (l.hosts f.dst).ll l.now e).2.1
    cases h with
    | unheard _ hw => exact on
    | ignored => exact on
    | asked => exact on
    | defended => exact on
    | lost => have := on.1; rw [r2] at this; cases this
    | conflict => have := on.1; rw [r2] at this; cases this
  have onb : ∀ j x, On (l'.hosts j).ll x → On (l.hosts j).ll x := by
    intro j x on
    rw [hll] at on
    split at on
    · rename_i hj; subst hj; exact onback x on
    · exact on
  -- one of two hosts finds out
  have key : ∀ a < l.n, ∀ b < l.n, a ≠ b → ∀ x, On (l'.hosts a).ll x → On (l'.hosts b).ll x → Breaks l D b a x → Breaks l' D b a x := by
    intro a ha b hb hab x oa ob hbr
    obtain ⟨hs, kd, due, ht, items⟩ := hbr
    have hbll : (l'.hosts b).ll = (l.hosts b).ll := by
      rw [hll]
      split
      · rename_i hbj
        have ob' := ob
        rw [hll, if_pos hbj] at ob'
        rw [← hbj] at h
        have r2 := (retired_ip (l.hosts b).ll l.now e).2.1
        cases h with
        | unheard => rfl
        | ignored => rfl
        | asked _ _ hs' => rcases hs with hs | hs <;> rw [hs] at hs' <;> simp at hs'
        | defended _ _ hs' => rcases hs with hs | hs <;> rw [hs] at hs' <;> simp at hs'
        | lost => have := ob'.1; rw [r2] at this; cases this
        | conflict => have := ob'.1; rw [r2] at this; cases this
      · rfl
    unfold Breaks
    rw [hbll]
    refine ⟨hs, kd, due, ht, ?_⟩
    have keep : ∀ g ∈ l.wire.eraseIdx k, g ∈ l'.wire := by
      intro g hg; rw [hwire]; exact List.mem_append.mpr (Or.inl (List.mem_append.mpr (Or.inl hg)))
    rcases items with ⟨g, hg, g1, g2, g3, g4⟩ | ⟨g, hg, g1, g2, g3⟩
    · rcases mem_erase hk hg with rfl | hg'
      · -- the probe or the announcement arrives at `a`
        right
        subst g1 g2
        have oa' := onb _ _ oa
        obtain ⟨hwatch, hx⟩ := oa'
        subst hx
        have hasks : Spec.Asks (l.hosts g.dst).ll.ip g.bytes := by rcases g3 with g3 | g3 <;> exact (g3.asks _).mpr rfl
        rw [hll, if_pos rfl] at oa
        have r2 := (retired_ip (l.hosts g.dst).ll l.now e).2.1
        cases h with
        | unheard _ hw => rw [hw] at hwatch; cases hwatch
        | ignored _ _ _ h2 => exact absurd hasks h2
        | lost => have := oa.1; rw [r2] at this; cases this
        | conflict => have := oa.1; rw [r2] at this; cases this
        | asked _ hw hs' h1 h2 =>
          have g3' : Spec.Request (l.hosts g.src).ll.mac 0 (l.hosts g.dst).ll.ip g.bytes := by
            rcases g3 with g3 | g3
            · exact g3
            · exact absurd ((g3.claims _).mpr rfl) h1
          have hadr : (l.hosts g.dst).addr = some (l.hosts g.dst).ll.ip := by
            rw [ok.addr _ hi]; unfold heldBy; rw [if_pos hs']
          obtain ⟨r, hr, hr1, hr2⟩ := answers_probe (may := may) (due := l.now + D) (f := g) mi hadr gi.ip g3'
          refine ⟨r, ?_, hr1, hr2, ?_⟩
          · rw [hwire]; exact List.mem_append.mpr (Or.inl (List.mem_append.mpr (Or.inr hr)))
          · rw [answer_late hr]; omega
        | defended _ hw hs' h1 =>
          refine ⟨⟨g.dst, g.src, _, l.now + D⟩, ?_, rfl, ((packet_parts (l.hosts g.dst).ll.host mi gi.ip gi.ip).claims _).mpr rfl, ?_⟩
          · rw [hwire]; exact List.mem_append.mpr (Or.inr (mem_frames _ hb (Ne.symm hab)))
          · dsimp only; omega
      · exact Or.inl ⟨g, keep g hg', g1, g2, g3, g4⟩
    · rcases mem_erase hk hg with rfl | hg'
      · -- a claim arrives at `b`
        exfalso
        subst g1
        obtain ⟨hwatch, hx⟩ := onb _ _ ob
        subst hx
        rw [hll, if_pos rfl] at ob
        have r2 := (retired_ip (l.hosts g.dst).ll l.now e).2.1
        cases h with
        | unheard _ hw => rw [hw] at hwatch; cases hwatch
        | ignored _ _ h1 => exact absurd g2 h1
        | asked _ _ hs' => rcases hs with hs | hs <;> rw [hs] at hs' <;> simp at hs'
        | defended _ _ hs' => rcases hs with hs | hs <;> rw [hs] at hs' <;> simp at hs'
        | lost => have := ob.1; rw [r2] at this; cases this
        | conflict => have := ob.1; rw [r2] at this; cases this
      · exact Or.inr ⟨g, keep g hg', g1, g2, g3⟩
  refine ⟨?_, ?_, ?_, ?_⟩
  · intro j hj
    rw [hn] at hj
    rw [hll]
    split
    · exact ⟨gi', trans_listens h li ho (by simp), by rw [mi']; exact mi⟩
    · exact ok.good j hj
  · intro j hj
    rw [hn] at hj
    rw [hll, haddr]
    split
    · rw [ok.addr _ hi, ← trans_held gi h]; rfl
    · exact ok.addr j hj
  · intro g hg
    rw [hnow]
    rw [hwire] at hg
    rcases List.mem_append.mp hg with hg | hg
    · rcases List.mem_append.mp hg with hg | hg
      · exact ok.late g (List.mem_of_mem_eraseIdx hg)
      · rw [answer_late hg]; exact Nat.le_add_right _ _
    · rw [frames_late hg]; exact Nat.le_add_right _ _
  · intro a ha b hb hab x oa ob
    rw [hn] at ha hb
    rcases ok.pairs a ha b hb hab x (onb a x oa) (onb b x ob) with h | h
    · exact Or.inl (key a ha b hb hab x oa ob h)
    · exact Or.inr (key b hb a ha (Ne.symm hab) x ob oa h)

theorem step_ok {l l' : Link} {D : Nat} {ev : Ev} (hD : 2 * D < 1000) (ok : LinkOk l D) (he : Spec.EvOk ev) (h : l.step D ev = some l') : LinkOk l' D := by
  cases ev with
  | tick d =>
    simp only [Link.step] at h
    split at h
    · rename_i hd
      cases h
      exact ⟨ok.good, ok.addr, hd, fun a ha b hb hab x oa ob => ok.pairs a ha b hb hab x oa ob⟩
    · cases h
  | start i e =>
    simp only [Link.step] at h
    split at h
    · rename_i hi
      split at h
      · rename_i c o hs
        cases h
        exact user_ok ok hi he.1 he.2 (Or.inl rfl) (step_trans (ok.good i hi).1 hs)
      · cases h
    · cases h
  | stop i e =>
    simp only [Link.step] at h
    split at h
    · rename_i hi
      split at h
      · rename_i c o hs
        cases h
        exact user_ok ok hi he.1 he.2 (Or.inr rfl) (step_trans (ok.good i hi).1 hs)
      · cases h
    · cases h
  | fire i e =>
    simp only [Link.step] at h
    split at h
    · rename_i hi
      split at h
      · rename_i c o hs
        cases h
        exact fire_ok hD ok hi he.1 he.2 (step_trans (ok.good i hi).1 hs)
      · cases h
    · cases h
  | deliver k may e =>
    simp only [Link.step] at h
    split at h
    · cases h
    · rename_i f hk
      by_cases hi : f.dst < l.n
      · simp only [hi, if_true] at h
        split at h
        · rename_i c o hs
          cases h
          exact deliver_ok ok hk hi he.1 he.2 (step_trans (ok.good _ hi).1 hs)
        · cases h
      · simp only [hi, if_false, List.append_nil, Option.some.injEq] at h
        subst h
        refine ⟨ok.good, ok.addr, fun g hg => ok.late g (List.mem_of_mem_eraseIdx hg), ?_⟩
        have hw : ∀ a < l.n, ∀ b < l.n, ∀ g ∈ l.wire, g.dst = a ∨ g.dst = b → g ∈ l.wire.eraseIdx k := by
          intro a ha b hb g hg hd
          rcases mem_erase hk hg with rfl | hg'
          · rcases hd with hd | hd <;> rw [hd] at hi <;> contradiction
          · exact hg'
        intro a ha b hb hab x oa ob
        rcases ok.pairs a ha b hb hab x oa ob with h | h
        · exact Or.inl (breaks_mono h rfl (hw a ha b hb))
        · exact Or.inr (breaks_mono h rfl (hw b hb a ha))
  | foreign j g =>
    cases h
    refine ⟨ok.good, ok.addr, ?_, ?_⟩
    · intro f hf
      rcases List.mem_append.mp hf with hf | hf
      · exact ok.late f hf
      · rw [List.mem_singleton.mp hf]; exact Nat.le_add_right _ _
    · intro a ha b hb hab x oa ob
      rcases ok.pairs a ha b hb hab x oa ob with h | h
      · exact Or.inl (breaks_mono h rfl (fun f hf _ => List.mem_append.mpr (Or.inl hf)))
      · exact Or.inr (breaks_mono h rfl (fun f hf _ => List.mem_append.mpr (Or.inl hf)))

theorem run_ok {l l' : Link} {D : Nat} {evs : List Ev} (hD : 2 * D < 1000) (ok : LinkOk l D) (he : ∀ ev ∈ evs, Spec.EvOk ev) (h : l.run D evs = some l') : LinkOk l' D := by
  induction evs generalizing l with
  | nil => cases h; exact ok
  | cons ev t ih =>
    simp only [Link.run] at h
    split at h
    · rename_i l1 hs
      exact ih (step_ok hD ok (he ev List.mem_cons_self) hs) (fun x hx => he x (List.mem_cons_of_mem _ hx)) h
    · cases h

theorem start_ok (n D : Nat) (host : Nat → Wire.Host) (mac : Nat → List Byte) (hm : ∀ i < n, (mac i).length = 6) : LinkOk (Link.start n host mac) D := by
  refine ⟨fun i hi => ⟨good_new _ _, fun _ => ⟨by simp [Link.start, new], by simp [Link.start, new], by simp [Link.start, new], by simp [Link.start, new]⟩, hm i hi⟩, fun i hi => rfl, ?_, ?_⟩
  · intro f hf; simp [Link.start] at hf
  intro i hi j hj hij x oi
  cases oi.1

end Verif.Ipv4ll
