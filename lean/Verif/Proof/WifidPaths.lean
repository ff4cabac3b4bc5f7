import Verif.Proof.Wifid
import Verif.Props.Mac
import Verif.Proof.RtspHead
/-! # Helper lemmas for the paths of objects -/
namespace Verif.Wifid
open Verif.C Spec

/-! ### Labels -/

theorem each_byte {P : Byte → Prop} (h : ∀ n : Fin 256, P (UInt8.ofFin n)) (c : Byte) : P c := h c.toFin

theorem unhex_hex : ∀ c : Byte, ((unhex (Mac.hexDigit (c.toNat / 16))).bind fun a => (unhex (Mac.hexDigit (c.toNat % 16))).map fun b => a * 16 + b) = some c.toNat :=
  each_byte (by decide +kernel)

theorem alpha_ne : ∀ c : Byte, isAlpha c = true → c ≠ 95 := each_byte (by decide +kernel)
theorem num_ne : ∀ c : Byte, isNum c = true → c ≠ 95 := each_byte (by decide +kernel)

theorem unescapeAll_keep (c : Byte) (r : List Byte) (h : c ≠ 95) : unescapeAll (c :: r) = c :: unescapeAll r := by
  match r with
  | [] => rfl
  | [d] => rfl
  | d :: e :: t => rw [unescapeAll, if_neg h]

theorem unescapeAll_hex (c : Byte) (r : List Byte) : unescapeAll (95 :: (Mac.hex2 c ++ r)) = c :: unescapeAll r := by
  show unescapeAll (95 :: Mac.hexDigit (c.toNat / 16) :: Mac.hexDigit (c.toNat % 16) :: r) = _
  rw [unescapeAll, if_pos rfl, unhex_hex]
  simp

theorem unescapeAll_escape (f : Bool) (s : List Byte) : unescapeAll (escapeFrom f s) = s := by
  induction s generalizing f with
  | nil => rfl
  | cons c t ih =>
    rw [escapeFrom]
    split
    · rename_i h
      have hc : c ≠ 95 := by
        rcases Bool.or_eq_true_iff.mp h with h | h
        · exact alpha_ne c h
        · exact num_ne c (Bool.and_eq_true_iff.mp h).1
      rw [List.singleton_append, unescapeAll_keep c _ hc, ih]
    · rw [List.cons_append, unescapeAll_hex, ih]

theorem unescape_escape (s : List Byte) : unescape (escape s) = s := by
  unfold escape
  split
  · rename_i h; subst h; rfl
  · rename_i h
    unfold unescape
    rw [if_neg]
    · exact unescapeAll_escape true s
    · intro e
      have := unescapeAll_escape true s
      rw [e] at this
      cases s with
      | nil => exact h rfl
      | cons c t =>
        have hs : c = 95 ∧ t = [] := by
          have : [(95 : Byte)] = c :: t := this
          cases this; exact ⟨rfl, rfl⟩
        obtain ⟨rfl, rfl⟩ := hs
        revert e; decide

theorem escape_inj {a b : List Byte} (h : escape a = escape b) : a = b := by
  rw [← unescape_escape a, h, unescape_escape]

theorem dec_inj {a b : Nat} (h : dec a = dec b) : a = b := by
  rw [← digitsVal_dec a, h, digitsVal_dec]

theorem canon_length {m : List Byte} (h : Canon m) : m.length = 17 := by
  obtain ⟨bs, hb, rfl⟩ := h
  exact Mac.format_length bs hb

theorem canon_again {m : List Byte} (h : Canon m) (zx : Bool) : Mac.format (Mac.scan zx 6 m) = m := by
  obtain ⟨bs, hb, rfl⟩ := h
  obtain ⟨fs, hf, hw⟩ := Mac.canon_writes bs hb
  have hlen : ∀ fs bs, Mac.Spec.WritesAll fs bs → fs.length = bs.length := by
    intro fs bs h
    induction h with
    | nil => rfl
    | cons _ _ ih => simp [ih]
  have hl := hlen _ _ hw
  have := Mac.scan_join zx fs bs hw
  rw [hl, hb] at this
  rw [hf, this, hf]

theorem hex_plain : ∀ c : Byte, ch '@' ≠ Mac.hexDigit (c.toNat / 16) ∧ ch '@' ≠ Mac.hexDigit (c.toNat % 16) := each_byte (by decide +kernel)

theorem canon_plain {m : List Byte} (h : Canon m) : ch '@' ∉ m := by
  obtain ⟨bs, hb, rfl⟩ := h
  match bs, hb with
  | [a, b, c, d, e, f], _ =>
    have h58 : ch '@' ≠ 58 := by decide
    simp [Mac.format, Mac.hex2, hex_plain, h58]

/-! ### Paths -/

theorem linkPath_inj {i j : Nat} (h : linkPath i = linkPath j) : i = j := by
  unfold linkPath at h
  have h := List.append_cancel_left h
  exact dec_inj (escape_inj (List.cons.inj h).2)

theorem peerPath_inj {m m' : List Byte} {i j : Nat} (hm : m.length = m'.length) (h : peerPath m i = peerPath m' j) : m = m' ∧ i = j := by
  unfold peerPath at h
  have h := escape_inj (List.cons.inj (List.append_cancel_left h)).2
  have h := List.append_inj h hm
  exact ⟨h.1, dec_inj (List.cons.inj h.2).2⟩

theorem link_ne_peer (i j : Nat) (m : List Byte) : linkPath i ≠ peerPath m j := by
  unfold linkPath peerPath
  intro h
  have := (List.append_inj h (by decide)).1
  revert this; decide

theorem root_ne (x : List Byte) : root ≠ linkPre ++ x ∧ root ≠ peerPre ++ x := by
  have h1 : root.length = 29 := by decide
  have h2 : linkPre.length = 34 := by decide
  have h3 : peerPre.length = 34 := by decide
  constructor <;> intro h <;> have := congrArg List.length h <;> rw [List.length_append] at this <;> omega

theorem path_inj {a b : Obj} (ha : ∀ m i, a = .peer m i → m.length = 17) (hb : ∀ m i, b = .peer m i → m.length = 17) (h : a.path = b.path) : a = b := by
  cases a with
  | link i =>
    cases b with
    | link j => rw [linkPath_inj h]
    | peer m j => exact absurd h (link_ne_peer _ _ _)
  | peer m i =>
    cases b with
    | link j => exact absurd h.symm (link_ne_peer _ _ _)
    | peer m' j =>
      obtain ⟨e1, e2⟩ := peerPath_inj (by rw [ha _ _ rfl, hb _ _ rfl]) h
      rw [e1, e2]

/-! ### Finding objects -/

theorem decode_pre (pre x : List Byte) : decode pre (pre ++ ch '/' :: escape x) = some x := by
  unfold decode
  rw [if_pos]
  · have : (pre ++ ch '/' :: escape x).drop (pre.length + 1) = escape x := by
      rw [List.drop_append]
      simp
    rw [this, unescape_escape]
  · rw [List.isPrefixOf_iff_prefix]
    exact ⟨escape x, by simp⟩

theorem linkByLabel_dec (s : Mgr) (i : Nat) (h : i < W32) : s.linkByLabel (dec i) = s.find i := by
  unfold Mgr.linkByLabel
  have := Rtsp.atoiUn_dec i [] (by intro c hc; cases hc) h
  rw [List.append_nil] at this
  rw [this]
  simp

theorem span_at (m x : List Byte) (h : ch '@' ∉ m) : (m ++ ch '@' :: x).takeWhile (· ≠ ch '@') = m ∧ (m ++ ch '@' :: x).dropWhile (· ≠ ch '@') = ch '@' :: x := by
  induction m with
  | nil => simp
  | cons c t ih =>
    simp only [List.mem_cons, not_or] at h
    have hc : c ≠ ch '@' := fun e => h.1 e.symm
    have := ih h.2
    simp [hc]
    simpa using this

/-! ### The list of objects -/

/-- Whether `n` paths can be allocated from number `i` on. -/
def allOk (ok : Nat → Bool) (i n : Nat) : Bool := (List.range n).all fun k => ok (i + k)

theorem allOk_iff (ok : Nat → Bool) (i n : Nat) : allOk ok i n = true ↔ ∀ k < n, ok (i + k) = true := by
  simp [allOk]

theorem allOk_zero (ok : Nat → Bool) (i : Nat) : allOk ok i 0 = true := by simp [allOk]

theorem allOk_add (ok : Nat → Bool) (i m n : Nat) : allOk ok i (m + n) = (allOk ok i m && allOk ok (i + m) n) := by
  rw [Bool.eq_iff_iff, Bool.and_eq_true, allOk_iff, allOk_iff, allOk_iff]
  constructor
  · intro h
    exact ⟨fun k hk => h k (by omega), fun k hk => by have := h (m + k) (by omega); rwa [← Nat.add_assoc] at this⟩
  · intro h k hk
    by_cases hm : k < m
    · exact h.1 k hm
    · have := h.2 (k - m) (by omega)
      have e : i + m + (k - m) = i + k := by omega
      rwa [e] at this

/-- The paths of the public peers of a link. -/
def peerPaths (l : Link) : List Path := (l.peers.filter (·.pub)).map fun p => peerPath p.mac l.idx

/-- The paths of a link and its public peers. -/
def paths (l : Link) : List Path := linkPath l.idx :: peerPaths l

theorem listPeers_eq (room lim : Nat) (ok : Nat → Bool) (i : Nat) (ps : List Peer) (a : List Path) (hl : a.length + ps.length ≤ lim) (hr : lim ≤ room) :
    listPeers room lim ok i ps a = some (if allOk ok a.length ((ps.filter (·.pub)).length) then some (a ++ (ps.filter (·.pub)).map fun p => peerPath p.mac i) else none) := by
  induction ps generalizing a with
  | nil => rw [listPeers]; simp [allOk_zero]
  | cons p t ih =>
    rw [List.length_cons] at hl
    rw [listPeers, if_neg (by omega)]
    cases hp : p.pub with
    | false =>
      have hf : (p :: t).filter (·.pub) = t.filter (·.pub) := by simp [hp]
      rw [if_pos rfl, ih a (by omega), hf]
    | true =>
      rw [if_neg (by decide), List.filter_cons, if_pos hp, List.length_cons, Nat.add_comm _ 1, allOk_add]
      have h1 : allOk ok a.length 1 = ok a.length := by simp [allOk, List.range_succ]
      rw [h1]
      cases ho : ok a.length with
      | false => simp
      | true =>
        rw [if_neg (by decide), store, if_pos (by omega), Option.bind_some, ih _ (by simp; omega)]
        simp

theorem listLinks_eq (room lim : Nat) (ok : Nat → Bool) (L : List Link) (a : List Path) (hpub : ∀ l ∈ L, l.pub = true)
    (hl : a.length + L.length + (L.map fun l => l.peers.length).sum ≤ lim) (hr : lim ≤ room) :
    listLinks room lim ok L a = some (if allOk ok a.length (L.flatMap paths).length then some (a ++ L.flatMap paths) else none) := by
  induction L generalizing a with
  | nil => rw [listLinks]; simp [allOk_zero]
  | cons l t ih =>
    rw [List.length_cons, List.map_cons, List.sum_cons] at hl
    have hle : (l.peers.filter (·.pub)).length ≤ l.peers.length := List.length_filter_le _ _
    rw [listLinks, if_neg (by omega), hpub l (by simp), if_neg (by decide), List.flatMap_cons, List.length_append]
    have hlen : (paths l).length = 1 + (l.peers.filter (·.pub)).length := by simp [paths, peerPaths, Nat.add_comm]
    rw [hlen, allOk_add, allOk_add]
    have h1 : allOk ok a.length 1 = ok a.length := by simp [allOk, List.range_succ]
    rw [h1]
    cases ho : ok a.length with
    | false => simp
    | true =>
      rw [if_neg (by decide), store, if_pos (by omega), Option.bind_some, listPeers_eq _ _ _ _ _ _ (by simp; omega) hr, Option.bind_some]
      rw [List.length_append, List.length_singleton]
      cases hq : allOk ok (a.length + 1) (l.peers.filter (·.pub)).length with
      | false => simp
      | true =>
        simp only [if_true, Bool.true_and]
        rw [ih _ (fun x hx => hpub x (by simp [hx])) (by simp; omega)]
        have e : ((a ++ [linkPath l.idx]) ++ (l.peers.filter (·.pub)).map fun p => peerPath p.mac l.idx) = a ++ paths l := by simp [paths, peerPaths]
        rw [e, List.length_append, hlen, List.append_assoc]

theorem fold_counts (W : Nat) (L : List Link) (n : Nat) (hn : n < W) (h : ∀ l ∈ L, l.cnt = l.peers.length % W) :
    L.foldl (fun n l => (n + l.cnt) % W) n = (n + (L.map fun l => l.peers.length).sum) % W := by
  induction L generalizing n with
  | nil => simp [Nat.mod_eq_of_lt hn]
  | cons l t ih =>
    rw [List.foldl_cons, ih _ (Nat.mod_lt _ (by omega)) (fun x hx => h x (by simp [hx])), h l (by simp), List.map_cons, List.sum_cons, Nat.mod_add_mod]
    rw [Nat.add_right_comm, Nat.add_mod_mod]
    congr 1; omega

/-- The number of links and peers. -/
def total (s : Mgr) : Nat := s.links.length + (s.links.map fun l => l.peers.length).sum

theorem enumerate_eq {s : Mgr} (h : Shape s) (ok : Nat → Bool) (ht : (total s + 2) * 8 < W64) :
    s.enumerate true ok = if allOk ok 0 (s.links.flatMap paths).length then
        (if ok (s.links.flatMap paths).length then some (.ok (s.links.flatMap paths ++ [root])) else some (.error (-ENOMEM)))
      else none := by
  have hfil : s.links.filter (·.pub) = s.links := List.filter_eq_self.mpr (fun l hl => (h.good l hl).pub)
  have hle : (s.links.flatMap paths).length ≤ total s := by
    unfold total
    generalize s.links = L
    induction L with
    | nil => simp
    | cons l t ih =>
      have hle : (l.peers.filter (·.pub)).length ≤ l.peers.length := List.length_filter_le _ _
      simp only [List.flatMap_cons, List.length_append, List.length_cons, List.map_cons, List.sum_cons, paths, peerPaths, List.length_map] at ih ⊢
      omega
  have hlim : (s.links.length + (s.links.map fun l => l.peers.length).sum) = total s := rfl
  have hpos : 0 < W64 := by omega
  have hc1 : s.cnt = s.links.length := by rw [h.cnt, Nat.mod_eq_of_lt (by omega)]
  have hc2 : s.links.foldl (fun n l => (n + l.cnt) % W64) 0 = (s.links.map fun l => l.peers.length).sum := by
    rw [fold_counts W64 s.links 0 hpos (fun l hl => (h.good l hl).cnt), Nat.zero_add, Nat.mod_eq_of_lt (by omega)]
  unfold Mgr.enumerate
  simp only
  rw [hfil, hc1, hc2, hlim, Nat.mod_eq_of_lt (show total s < W64 by omega), Nat.mod_eq_of_lt (show total s + 2 < W64 by omega)]
  rw [if_neg (by simp; omega), listLinks_eq _ _ _ _ _ (fun l hl => (h.good l hl).pub) (by simp; omega) (by omega), Option.bind_some]
  simp only [List.length_nil, List.nil_append]
  cases allOk ok 0 (s.links.flatMap paths).length with
  | false => rfl
  | true =>
    simp only [if_true]
    cases ok (s.links.flatMap paths).length with
    | false => rfl
    | true => rw [if_neg (by decide), if_pos rfl, store, if_pos (by omega), Option.bind_some, if_pos (by rw [List.length_append, List.length_singleton]; omega)]

theorem mem_paths (L : List Link) (x : Path) : x ∈ L.flatMap paths ↔ (∃ l ∈ L, x = linkPath l.idx) ∨ ∃ l ∈ L, ∃ p ∈ l.peers, p.pub = true ∧ x = peerPath p.mac l.idx := by
  simp only [List.mem_flatMap, paths, peerPaths, List.mem_cons, List.mem_map, List.mem_filter]
  constructor
  · rintro ⟨l, hl, e | ⟨p, ⟨hp, hpub⟩, e⟩⟩
    · exact Or.inl ⟨l, hl, e⟩
    · exact Or.inr ⟨l, hl, p, hp, hpub, e.symm⟩
  · rintro (⟨l, hl, e⟩ | ⟨l, hl, p, hp, hpub, e⟩)
    · exact ⟨l, hl, Or.inl e⟩
    · exact ⟨l, hl, Or.inr ⟨p, ⟨hp, hpub⟩, e.symm⟩⟩

theorem nodup_paths {s : Mgr} (h : Shape s) : (s.links.flatMap paths ++ [root]).Nodup := by
  have hroot : root ∉ s.links.flatMap paths := by
    rw [mem_paths]
    rintro (⟨l, _, e⟩ | ⟨l, _, p, _, _, e⟩)
    · exact (root_ne _).1 e
    · exact (root_ne _).2 e
  rw [List.nodup_append]
  refine ⟨?_, by simp, by intro a ha b hb; simp at hb; subst hb; intro e; exact hroot (e ▸ ha)⟩
  obtain ⟨nd, hcnt, good⟩ := h
  clear hroot hcnt
  generalize s.links = L at *
  induction L with
  | nil => simp
  | cons l t ih =>
    simp only [List.map_cons, List.nodup_cons] at nd
    rw [List.flatMap_cons, List.nodup_append]
    have hg := good l (by simp)
    refine ⟨?_, ih nd.2 (fun x hx => good x (by simp [hx])), ?_⟩
    · unfold paths peerPaths
      rw [List.nodup_cons]
      constructor
      · intro hm
        obtain ⟨p, _, e⟩ := List.mem_map.mp hm
        exact link_ne_peer _ _ _ e.symm
      · have hnd : ((l.peers.filter (·.pub)).map (·.mac)).Nodup := hg.nd.sublist (List.Sublist.map _ List.filter_sublist)
        have hcan : ∀ p ∈ l.peers.filter (·.pub), Canon p.mac := fun p hp => hg.canon p (List.mem_filter.mp hp).1
        generalize l.peers.filter (·.pub) = ps at *
        induction ps with
        | nil => simp
        | cons p u ihp =>
          simp only [List.map_cons, List.nodup_cons] at hnd ⊢
          refine ⟨?_, ihp hnd.2 (fun q hq => hcan q (by simp [hq]))⟩
          intro hm
          obtain ⟨q, hq, e⟩ := List.mem_map.mp hm
          have := (peerPath_inj (by rw [canon_length (hcan q (by simp [hq])), canon_length (hcan p (by simp))]) e).1
          exact hnd.1 (by rw [← this]; exact List.mem_map_of_mem hq)
    · intro a ha b hb e
      subst e
      have h1 := (mem_paths [l] a).mp (by simpa using ha)
      rcases h1 with ⟨l1, hl1, e1⟩ | ⟨l1, hl1, p1, hp1, _, e1⟩ <;> simp only [List.mem_singleton] at hl1 <;> subst hl1
      · rcases (mem_paths t a).mp hb with ⟨l2, hl2, e2⟩ | ⟨l2, hl2, p2, hp2, _, e2⟩
        · have := linkPath_inj (e1.symm.trans e2)
          exact nd.1 (by rw [this]; exact List.mem_map_of_mem hl2)
        · exact link_ne_peer _ _ _ (e1.symm.trans e2)
      · rcases (mem_paths t a).mp hb with ⟨l2, hl2, e2⟩ | ⟨l2, hl2, p2, hp2, _, e2⟩
        · exact link_ne_peer _ _ _ (e2.symm.trans e1)
        · have := (peerPath_inj (by rw [canon_length (hg.canon p1 hp1), canon_length ((good l2 (by simp [hl2])).canon p2 hp2)]) (e1.symm.trans e2)).2
          exact nd.1 (by rw [this]; exact List.mem_map_of_mem hl2)

end Verif.Wifid
