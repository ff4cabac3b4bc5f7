import Verif.Proof.BusWords
/-! # Helper lemmas: a listener and the daemon -/
namespace Verif.Daemon
open Verif.C Mirror
open Wifid (linkPath peerPath linkPre peerPre Canon Obj View Sig)
open Wifid.Spec (see fits note)

/-- A link with the values `w` is shown right. -/
def LinkOk (i : Nat) (w : View) (v : LinkView) : Prop :=
  v.ifindex = i ∧ v.ifname = some w.name ∧ v.friendly = some (w.friendly.getD []) ∧ v.wfd = some (w.wfd.getD [])

/-- `K` is what a listener knows, if the objects `F` exist with the values `px`, `scan`. Addresses are required for the peers in `A`, that scans
have ended for the links in `S`, and `Mg` of the property `Managed`. -/
structure J (A : List Byte → Nat → Prop) (S : Nat → Prop) (Mg : Nat → Bool → Prop) (F : Obj → Option (Option View)) (px : List Byte → Nat → PV) (scan : Nat → Bool)
    (K : Known) : Prop where
  link : ∀ i w, F (.link i) = some (some w) → ∃ v, K.link (dec i) = some v ∧ LinkOk i w v ∧ (scan i = true → v.scanning = true) ∧ (S i → v.scanning = scan i) ∧ Mg i v.managed
  nolink : ∀ i, F (.link i) = none → K.link (dec i) = none
  full : ∀ i, F (.link i) ≠ some none
  peer : ∀ m i x, Canon m → F (.peer m i) = some x → ∃ v, K.peer (peerLabel m i) = some v ∧ peerShown m (px m i) v ∧ (A m i → addrShown (px m i) v)
  nopeer : ∀ m i, Canon m → F (.peer m i) = none → K.peer (peerLabel m i) = none
  onlyL : ∀ k, K.link k ≠ none → ∃ i, k = dec i
  onlyP : ∀ k, K.peer k ≠ none → ∃ m i, Canon m ∧ k = peerLabel m i

variable {A : List Byte → Nat → Prop} {S : Nat → Prop} {Mg : Nat → Bool → Prop} {F : Obj → Option (Option View)} {px : List Byte → Nat → PV} {scan : Nat → Bool} {K : Known}

theorem J.known (h : J A S Mg F px scan K) {i : Nat} (hi : (F (.link i)).isSome = true) : ∃ w, F (.link i) = some (some w) := by
  cases e : F (.link i) with
  | none => rw [e] at hi; cases hi
  | some x =>
    cases x with
    | none => exact absurd e (h.full i)
    | some w => exact ⟨w, rfl⟩

theorem see_link_ne {i j : Nat} (h : j ≠ i) (k : Option (Option View)) (v : Option View) : see (.link j) k (.added (.link i) v) = k := by
  have : Obj.link i ≠ Obj.link j := by intro e; injection e with e; exact h e.symm
  simp [see, this]

theorem J.addLink (h : J A S Mg F px scan K) {i : Nat} (hn : F (.link i) = none) (v v' : View) (hname : v'.name = v.name) (hf : v'.friendly = v.friendly) (hw : v'.wfd = v.wfd)
    (hm : Mg i v'.managed) (std : Ifaces) (hstd : ∀ q ∈ std, q.1 ≠ linkIf) :
    (K.add (linkPath i) (std ++ [(linkIf, linkProps i v' (scan i))])).2 = true ∧
    J A S Mg (fun o => see o (F o) (.added (.link i) (some v))) px scan (K.add (linkPath i) (std ++ [(linkIf, linkProps i v' (scan i))])).1 := by
  have hk := h.nolink i hn
  have e : K.add (linkPath i) (std ++ [(linkIf, linkProps i v' (scan i))]) =
      ({ K with link := setAt K.link (dec i) (some ⟨i, some v'.name, some (v'.friendly.getD []), v'.managed, some (v'.wfd.getD []), scan i⟩) }, true) := by
    unfold Known.add
    rw [label_link]
    simp only
    rw [key_dec, hk, if_neg (by simp), about_own _ _ _ hstd, if_neg (by simp [typed_link]), if_neg (dec_ne_nil i)]
    simp only [List.foldl_cons, List.foldl_nil, say_link]
  rw [e]
  refine ⟨rfl, ⟨?_, ?_, ?_, ?_, ?_, ?_, ?_⟩⟩
  · intro j w hj
    by_cases hji : j = i
    · subst hji
      simp only [see, if_true, Option.some.injEq] at hj
      subst hj
      refine ⟨⟨j, some v'.name, some (v'.friendly.getD []), v'.managed, some (v'.wfd.getD []), scan j⟩, if_pos rfl, ⟨rfl, ?_, ?_, ?_⟩, id, fun _ => rfl, hm⟩
      · exact congrArg _ hname
      · show some (v'.friendly.getD []) = _; rw [hf]
      · show some (v'.wfd.getD []) = _; rw [hw]
    · rw [see_link_ne hji] at hj
      obtain ⟨u, hu, hr⟩ := h.link j w hj
      exact ⟨u, by simp only [setAt]; rw [if_neg (fun e => hji (Wifid.dec_inj e))]; exact hu, hr⟩
  · intro j hj
    by_cases hji : j = i
    · subst hji; simp [see] at hj
    · rw [see_link_ne hji] at hj
      simp only [setAt]; rw [if_neg (fun e => hji (Wifid.dec_inj e))]; exact h.nolink j hj
  · intro j
    by_cases hji : j = i
    · subst hji; simp [see]
    · rw [see_link_ne hji]; exact h.full j
  · intro m j x hc hj
    exact h.peer m j x hc (by simpa [see] using hj)
  · intro m j hc hj
    exact h.nopeer m j hc (by simpa [see] using hj)
  · intro k hk
    by_cases e : k = dec i
    · exact ⟨i, e⟩
    · simp only [setAt, if_neg e] at hk; exact h.onlyL k hk
  · exact h.onlyP

theorem say_peer (pv : PV) (m : List Byte) : PeerView.say {} (pv.props m) = ⟨some m, some (pv.friendly.getD (bytes "<unknown>")), pv.connected,
    some ((if pv.connected then pv.iface else none).getD []), some ((if pv.connected then pv.loc else none).getD []), some ((if pv.connected then pv.rem else none).getD []),
    some (pv.wfd.getD [])⟩ := rfl

theorem typed_peer (pv : PV) (m : List Byte) : peerTyped (pv.props m) = true := by
  unfold peerTyped PV.props text
  simp only [List.all_cons, List.all_nil, Val.str, Val.bool]
  simp
  decide

theorem typed_filter (pv : PV) (m : List Byte) (p : List Byte × Val → Bool) : peerTyped ((pv.props m).filter p) = true := by
  have := typed_peer pv m
  unfold peerTyped at this ⊢
  rw [List.all_eq_true] at this ⊢
  exact fun q hq => this q (List.mem_filter.mp hq).1

theorem shown_own (m : List Byte) (pv : PV) : peerShown m pv (PeerView.say {} (pv.props m)) ∧ addrShown pv (PeerView.say {} (pv.props m)) := by
  rw [say_peer]
  refine ⟨⟨rfl, rfl, rfl, rfl⟩, ?_⟩
  unfold addrShown
  split
  · rename_i e; simp [e]
  · rename_i e; simp [e]

theorem J.addPeer (h : J A S Mg F px scan K) {m : List Byte} {i : Nat} (hc : Canon m) (hn : F (.peer m i) = none) (hl : (F (.link i)).isSome = true)
    (std : Ifaces) (hstd : ∀ q ∈ std, q.1 ≠ peerIf) :
    (K.add (peerPath m i) (std ++ [(peerIf, (px m i).props m)])).2 = true ∧
    J A S Mg (fun o => see o (F o) (.added (.peer m i) none)) px scan (K.add (peerPath m i) (std ++ [(peerIf, (px m i).props m)])).1 := by
  have hk := h.nopeer m i hc hn
  obtain ⟨w, hw⟩ := h.known hl
  obtain ⟨v, hv, _⟩ := h.link i w hw
  have e : K.add (peerPath m i) (std ++ [(peerIf, (px m i).props m)]) = ({ K with peer := setAt K.peer (peerLabel m i) (some (PeerView.say {} ((px m i).props m))) }, true) := by
    unfold Known.add
    rw [label_none, label_peer hc]
    simp only
    rw [key_peer hc, hk, if_neg (by simp), after_peer hc]
    simp only
    rw [key_dec, hv, if_neg (by simp [dec_ne_nil]), about_own _ _ _ hstd, if_neg (by simp [typed_peer])]
    simp only [List.foldl_cons, List.foldl_nil]
  rw [e]
  refine ⟨rfl, ⟨?_, ?_, ?_, ?_, ?_, ?_, ?_⟩⟩
  · intro j w hj
    exact h.link j w (by simpa [see] using hj)
  · intro j hj
    exact h.nolink j (by simpa [see] using hj)
  · intro j
    have := h.full j
    simpa [see] using this
  · intro m' j x hc' hj
    by_cases hji : m' = m ∧ j = i
    · obtain ⟨rfl, rfl⟩ := hji
      exact ⟨_, by simp only [setAt, if_true], (shown_own _ _).1, fun _ => (shown_own _ _).2⟩
    · have hne : Obj.peer m i ≠ Obj.peer m' j := by intro e; injection e with e1 e2; exact hji ⟨e1.symm, e2.symm⟩
      simp only [see, if_neg hne] at hj
      obtain ⟨u, hu, hr⟩ := h.peer m' j x hc' hj
      exact ⟨u, by simp only [setAt]; rw [if_neg (fun e => hji (peerLabel_inj hc' hc e))]; exact hu, hr⟩
  · intro m' j hc' hj
    by_cases hji : m' = m ∧ j = i
    · obtain ⟨rfl, rfl⟩ := hji
      simp [see] at hj
    · have hne : Obj.peer m i ≠ Obj.peer m' j := by intro e; injection e with e1 e2; exact hji ⟨e1.symm, e2.symm⟩
      simp only [see, if_neg hne] at hj
      simp only [setAt]; rw [if_neg (fun e => hji (peerLabel_inj hc' hc e))]; exact h.nopeer m' j hc' hj
  · exact h.onlyL
  · intro k hk
    by_cases e : k = peerLabel m i
    · exact ⟨m, i, hc, e⟩
    · simp only [setAt, if_neg e] at hk; exact h.onlyP k hk

theorem J.dropLink (h : J A S Mg F px scan K) {i : Nat} (hn : ∀ m, F (.peer m i) = none) :
    J A S Mg (fun o => see o (F o) (.removed (.link i))) px scan (K.drop (linkPath i)) := by
  have e : K.drop (linkPath i) = ⟨setAt K.link (dec i) none, fun x => if afterAt x = some (dec i) then none else K.peer x⟩ := by
    unfold Known.drop
    rw [label_link]
    simp only
    rw [if_neg (dec_ne_nil i), key_dec]
  have hs : ∀ j, j ≠ i → ∀ k, see (.link j) k (.removed (.link i)) = k := by
    intro j hj k
    have : Obj.link i ≠ Obj.link j := by intro e; injection e with e; exact hj e.symm
    simp [see, this]
  have hp : ∀ m j, Canon m → (if afterAt (peerLabel m j) = some (dec i) then none else K.peer (peerLabel m j)) = K.peer (peerLabel m j) := by
    intro m j hc
    split
    · rename_i e
      rw [after_peer hc] at e
      have := Wifid.dec_inj (Option.some.inj e)
      subst this
      exact (h.nopeer m j hc (hn m)).symm
    · rfl
  rw [e]
  refine ⟨?_, ?_, ?_, ?_, ?_, ?_, ?_⟩
  · intro j w hj
    by_cases hji : j = i
    · subst hji; simp [see] at hj
    · rw [hs j hji] at hj
      obtain ⟨u, hu, hr⟩ := h.link j w hj
      exact ⟨u, by simp only [setAt]; rw [if_neg (fun e => hji (Wifid.dec_inj e))]; exact hu, hr⟩
  · intro j hj
    by_cases hji : j = i
    · subst hji; simp [setAt]
    · rw [hs j hji] at hj
      simp only [setAt]; rw [if_neg (fun e => hji (Wifid.dec_inj e))]; exact h.nolink j hj
  · intro j
    by_cases hji : j = i
    · subst hji; simp [see]
    · rw [hs j hji]; exact h.full j
  · intro m j x hc hj
    obtain ⟨u, hu, hr⟩ := h.peer m j x hc (by simpa [see] using hj)
    exact ⟨u, by simp only; rw [hp m j hc]; exact hu, hr⟩
  · intro m j hc hj
    simp only
    rw [hp m j hc]
    exact h.nopeer m j hc (by simpa [see] using hj)
  · intro k hk
    by_cases e : k = dec i
    · exact ⟨i, e⟩
    · simp only [setAt, if_neg e] at hk; exact h.onlyL k hk
  · intro k hk
    simp only at hk
    split at hk
    · exact absurd rfl hk
    · exact h.onlyP k hk

theorem J.dropPeer (h : J A S Mg F px scan K) {m : List Byte} (i : Nat) (hc : Canon m) :
    J A S Mg (fun o => see o (F o) (.removed (.peer m i))) px scan (K.drop (peerPath m i)) := by
  have e : K.drop (peerPath m i) = { K with peer := setAt K.peer (peerLabel m i) none } := by
    unfold Known.drop
    rw [label_none, label_peer hc]
    simp only
    rw [key_peer hc]
  rw [e]
  refine ⟨?_, ?_, ?_, ?_, ?_, h.onlyL, ?_⟩
  · intro j w hj
    exact h.link j w (by simpa [see] using hj)
  · intro j hj
    exact h.nolink j (by simpa [see] using hj)
  · intro j
    have := h.full j
    simpa [see] using this
  · intro m' j x hc' hj
    by_cases hji : m' = m ∧ j = i
    · obtain ⟨rfl, rfl⟩ := hji
      simp [see] at hj
    · have hne : Obj.peer m i ≠ Obj.peer m' j := by intro e; injection e with e1 e2; exact hji ⟨e1.symm, e2.symm⟩
      simp only [see, if_neg hne] at hj
      obtain ⟨u, hu, hr⟩ := h.peer m' j x hc' hj
      exact ⟨u, by simp only [setAt]; rw [if_neg (fun e => hji (peerLabel_inj hc' hc e))]; exact hu, hr⟩
  · intro m' j hc' hj
    by_cases hji : m' = m ∧ j = i
    · obtain ⟨rfl, rfl⟩ := hji
      simp [setAt]
    · have hne : Obj.peer m i ≠ Obj.peer m' j := by intro e; injection e with e1 e2; exact hji ⟨e1.symm, e2.symm⟩
      simp only [see, if_neg hne] at hj
      simp only [setAt]; rw [if_neg (fun e => hji (peerLabel_inj hc' hc e))]; exact h.nopeer m' j hc' hj
  · intro k hk
    by_cases e : k = peerLabel m i
    · exact ⟨m, i, hc, e⟩
    · simp only [setAt, if_neg e] at hk; exact h.onlyP k hk

/-- A link says something new. -/
theorem J.sayLink (h : J A S Mg F px scan K) {i : Nat} {w w' : View} (hw : F (.link i) = some (some w)) {F' : Obj → Option (Option View)}
    (hF : ∀ o, F' o = if o = .link i then some (some w') else F o) {ps : Props} (ht : linkTyped ps = true) {scan' : Nat → Bool} (hs : ∀ j, j ≠ i → scan' j = scan j)
    (hok : ∀ v, LinkOk i w v → (scan i = true → v.scanning = true) → (S i → v.scanning = scan i) → Mg i v.managed →
      LinkOk i w' (v.say ps) ∧ (scan' i = true → (v.say ps).scanning = true) ∧ (S i → (v.say ps).scanning = scan' i) ∧ Mg i (v.say ps).managed) :
    J A S Mg F' px scan' (K.change (linkPath i) linkIf ps) := by
  have e : K.change (linkPath i) linkIf ps = { K with link := setAt K.link (dec i) ((K.link (dec i)).map (·.say ps)) } := by
    unfold Known.change
    rw [label_link]
    simp only
    rw [if_pos ⟨dec_ne_nil i, by simp [ht]⟩, key_dec]
  have hne : ∀ j, j ≠ i → Obj.link j ≠ Obj.link i := fun j hj e => by injection e with e; exact hj e
  have hpe : ∀ m j, F' (.peer m j) = F (.peer m j) := fun m j => by rw [hF, if_neg (by intro e; cases e)]
  rw [e]
  refine ⟨?_, ?_, ?_, ?_, ?_, ?_, h.onlyP⟩
  · intro j u hj
    by_cases hji : j = i
    · subst hji
      rw [hF, if_pos rfl] at hj
      injection hj with hj
      injection hj with hj
      subst hj
      obtain ⟨v, hv, h1, h2, h3, h4⟩ := h.link j w hw
      exact ⟨v.say ps, by simp [setAt, hv], hok v h1 h2 h3 h4⟩
    · rw [hF, if_neg (hne j hji)] at hj
      obtain ⟨v, hv, h1⟩ := h.link j u hj
      exact ⟨v, by simp only [setAt]; rw [if_neg (fun e => hji (Wifid.dec_inj e))]; exact hv, by rw [hs j hji]; exact h1⟩
  · intro j hj
    by_cases hji : j = i
    · subst hji; rw [hF, if_pos rfl] at hj; cases hj
    · rw [hF, if_neg (hne j hji)] at hj
      simp only [setAt]; rw [if_neg (fun e => hji (Wifid.dec_inj e))]; exact h.nolink j hj
  · intro j
    rw [hF]
    split
    · simp
    · exact h.full j
  · intro m j x hc hj
    rw [hpe] at hj; exact h.peer m j x hc hj
  · intro m j hc hj
    rw [hpe] at hj; exact h.nopeer m j hc hj
  · intro k hk
    by_cases e : k = dec i
    · exact ⟨i, e⟩
    · simp only [setAt, if_neg e] at hk; exact h.onlyL k hk

/-- A peer says something new. -/
theorem J.sayPeer (h : J A S Mg F px scan K) {m : List Byte} {i : Nat} (hc : Canon m) {x : Option View} (hx : F (.peer m i) = some x) {ps : Props} (ht : peerTyped ps = true)
    {px' : List Byte → Nat → PV} (hp : ∀ m' j, ¬ (m' = m ∧ j = i) → px' m' j = px m' j)
    (hok : ∀ v, peerShown m (px m i) v → (A m i → addrShown (px m i) v) → peerShown m (px' m i) (v.say ps) ∧ (A m i → addrShown (px' m i) (v.say ps))) :
    J A S Mg F px' scan (K.change (peerPath m i) peerIf ps) := by
  have e : K.change (peerPath m i) peerIf ps = { K with peer := setAt K.peer (peerLabel m i) ((K.peer (peerLabel m i)).map (·.say ps)) } := by
    unfold Known.change
    rw [label_none, label_peer hc]
    simp only
    rw [if_pos (by simp [ht]), key_peer hc]
  rw [e]
  refine ⟨h.link, h.nolink, h.full, ?_, ?_, h.onlyL, ?_⟩
  · intro m' j y hc' hj
    by_cases hji : m' = m ∧ j = i
    · obtain ⟨rfl, rfl⟩ := hji
      obtain ⟨v, hv, h1, h2⟩ := h.peer m' j x hc hx
      exact ⟨v.say ps, by simp [setAt, hv], hok v h1 h2⟩
    · obtain ⟨v, hv, h1⟩ := h.peer m' j y hc' hj
      exact ⟨v, by simp only [setAt]; rw [if_neg (fun e => hji (peerLabel_inj hc' hc e))]; exact hv, by rw [hp m' j hji]; exact h1⟩
  · intro m' j hc' hj
    by_cases hji : m' = m ∧ j = i
    · obtain ⟨rfl, rfl⟩ := hji
      rw [hx] at hj; cases hj
    · simp only [setAt]; rw [if_neg (fun e => hji (peerLabel_inj hc' hc e))]; exact h.nopeer m' j hc' hj
  · intro k hk
    by_cases e : k = peerLabel m i
    · exact ⟨m, i, hc, e⟩
    · simp only [setAt, if_neg e] at hk; exact h.onlyP k hk

/-- The values of objects that are not there, or in nothing that is shown, do not matter. -/
theorem J.values (h : J A S Mg F px scan K) {px' : List Byte → Nat → PV} {scan' : Nat → Bool}
    (hp : ∀ m i, Canon m → F (.peer m i) ≠ none → ∀ v, peerShown m (px m i) v → (A m i → addrShown (px m i) v) → peerShown m (px' m i) v ∧ (A m i → addrShown (px' m i) v))
    (hs : ∀ i, F (.link i) ≠ none → (scan' i = true → scan i = true) ∧ (S i → scan' i = scan i)) : J A S Mg F px' scan' K := by
  refine ⟨?_, h.nolink, h.full, ?_, h.nopeer, h.onlyL, h.onlyP⟩
  · intro i w hi
    obtain ⟨v, hv, h1, h2, h3, h4⟩ := h.link i w hi
    have := hs i (by rw [hi]; simp)
    exact ⟨v, hv, h1, fun e => h2 (this.1 e), fun e => by rw [this.2 e]; exact h3 e, h4⟩
  · intro m i x hc hx
    obtain ⟨v, hv, h1, h2⟩ := h.peer m i x hc hx
    exact ⟨v, hv, hp m i hc (by rw [hx]; simp) v h1 h2⟩

/-- Hear a message, if there is one. -/
def hearOpt (K : Known) : Option Msg → Known
  | none => K
  | some m => K.hear m

theorem J.sig (h : J A S Mg F px scan K) (hM : ∀ i, Mg i false) (g : Sig) (hg : fits F g) :
    J A S Mg (fun o => see o (F o) g) px scan (hearOpt K (sigMsg px scan g)) := by
  cases g with
  | added o v =>
    cases o with
    | link i =>
      obtain ⟨h1, w, rfl, h2⟩ := hg
      exact (h.addLink h1 w w rfl rfl rfl (by rw [h2]; exact hM i) [] (by simp)).2
    | peer m i =>
      obtain ⟨h1, rfl, h2, h3⟩ := hg
      exact (h.addPeer h3 h1 h2 [] (by simp)).2
  | removed o =>
    cases o with
    | link i => exact h.dropLink hg
    | peer m i => exact h.dropPeer i hg
  | changed o x =>
    cases o with
    | link i =>
      obtain ⟨w, hw⟩ := h.known hg
      refine h.sayLink (w' := note w x) hw ?_ (by cases x <;> rfl) (fun _ _ => rfl) ?_
      · intro o
        by_cases e : o = .link i
        · subst e; simp [see, hw]
        · simp only [see, if_neg e, if_neg (Ne.symm e)]
      · intro v h1 h2 h3 h4
        obtain ⟨a, b, c, d⟩ := h1
        cases x with
        | name y => exact ⟨⟨a, rfl, c, d⟩, h2, h3, h4⟩
        | friendly y => exact ⟨⟨a, b, rfl, d⟩, h2, h3, h4⟩
        | wfd y => exact ⟨⟨a, b, c, rfl⟩, h2, h3, h4⟩
    | peer m i => exact absurd hg (by simp [fits])
  | config i t => exact h
  | device i t => exact h
  | subelem i t => exact h

theorem J.sigs (hM : ∀ i, Mg i false) (g : List Sig) : ∀ {F : Obj → Option (Option View)} {K : Known}, J A S Mg F px scan K → Wifid.soundFrom F g →
    J A S Mg (fun o => g.foldl (see o) (F o)) px scan ((g.filterMap (sigMsg px scan)).foldl Known.hear K) := by
  induction g with
  | nil => intro F K h _; exact h
  | cons x t ih =>
    intro F K h hg
    have := ih (h.sig hM x hg.1) hg.2
    rw [List.filterMap_cons]
    cases e : sigMsg px scan x with
    | none => rw [e] at this; exact this
    | some m => rw [e] at this; exact this

end Verif.Daemon
