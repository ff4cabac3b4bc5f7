import Verif.Proof.Bus
/-! # Helper lemmas: events of the daemon -/
namespace Verif.Wifid
open Verif.C

/-- The log only grows. -/
def Ext (s s' : Mgr) : Prop := ∃ g, s'.log = s.log ++ g

theorem Ext.rfl {s : Mgr} : Ext s s := ⟨[], by simp⟩
theorem Ext.trans {a b c : Mgr} (h : Ext a b) (h' : Ext b c) : Ext a c := by
  obtain ⟨g, hg⟩ := h
  obtain ⟨g', hg'⟩ := h'
  exact ⟨g ++ g', by rw [hg', hg, List.append_assoc]⟩

theorem ext_emit (s : Mgr) (g : List Sig) : Ext s (s.emit g) := ⟨g, by simp [Mgr.emit]⟩
theorem ext_update (s : Mgr) (i : Nat) (f : Link → Link) : Ext s (s.update i f) := ⟨[], by simp [Mgr.update]⟩
theorem ext_both (s : Mgr) (i : Nat) (f : Link → Link) (g : List Sig) : Ext s ((s.update i f).emit g) := (ext_update s i f).trans (ext_emit _ g)

theorem ext_drop (s : Mgr) (l : Link) : Ext s (s.dropPeers l) := ext_both s _ _ _

theorem ext_managed (s : Mgr) (i : Nat) (set ok : Bool) : Ext s (s.setManaged i set ok) := by
  unfold Mgr.setManaged
  split
  · exact Ext.rfl
  · split
    · exact Ext.rfl
    · split
      · split
        · exact ext_both _ _ _ _
        · exact Ext.rfl
      · exact (ext_drop _ _).trans (ext_update _ _ _)

theorem ext_free (s : Mgr) (i : Nat) : Ext s (s.linkFree i) := by
  unfold Mgr.linkFree
  split
  · exact Ext.rfl
  · obtain ⟨g, hg⟩ := (ext_managed s i false true).trans (ext_emit _ [.removed (.link i)])
    exact ⟨g, hg⟩

theorem ext_new (s : Mgr) (a : Alloc) (pos i : Nat) (name : List Byte) : Ext s (s.linkNew a pos i name).1 := by
  unfold Mgr.linkNew
  split
  · exact Ext.rfl
  · split
    · exact Ext.rfl
    · split
      · exact Ext.rfl
      · split
        · exact ⟨_, rfl⟩
        · exact ext_emit _ _

theorem ext_rename (s : Mgr) (i : Nat) (name : List Byte) (ok : Bool) : Ext s (s.rename i name ok) := by
  unfold Mgr.rename
  split
  · exact Ext.rfl
  · split
    · exact Ext.rfl
    · exact ext_both _ _ _ _

theorem ext_friendly (s : Mgr) (i : Nat) (name : List Byte) (ok ready sent : Bool) : Ext s (s.setFriendly i name ok ready sent) := by
  unfold Mgr.setFriendly
  split
  · exact Ext.rfl
  · split
    · exact Ext.rfl
    · split
      · exact Ext.rfl
      · exact ext_both _ _ _ _

theorem ext_wfd (s : Mgr) (i : Nat) (val : List Byte) (ok ready sent : Bool) : Ext s (s.setWfd i val ok ready sent) := by
  unfold Mgr.setWfd
  split
  · exact Ext.rfl
  · split
    · exact Ext.rfl
    · split
      · exact Ext.rfl
      · exact ext_both _ _ _ _

theorem ext_addDev (o : Opts) (s : Mgr) (a : Alloc) (pos : Nat) (d : Dev) (ok : Bool) : Ext s (s.addDev o a pos d ok) := by
  unfold Mgr.addDev
  split
  · exact Ext.rfl
  · split
    · exact Ext.rfl
    · split
      · exact Ext.rfl
      · split
        · exact Ext.rfl
        · simp only
          rename_i name _ _ _
          have h1 := ext_new s a pos d.idx name
          generalize s.linkNew a pos d.idx name = r at *
          split
          · exact h1
          · have h2 : Ext s (if o.host.isSome ∧ ((r.1.find d.idx).any (·.managed)) = true then r.1.setFriendly d.idx (o.host.getD []) true false true else r.1) := by
              split
              · exact h1.trans (ext_friendly _ _ _ _ _ _)
              · exact h1
            generalize (if o.host.isSome ∧ ((r.1.find d.idx).any (·.managed)) = true then r.1.setFriendly d.idx (o.host.getD []) true false true else r.1) = s2 at *
            have h3 := h2.trans (ext_update s2 d.idx fun l => ((l.setMethods o.methods).setDriver o.driver).setIntent o.intent)
            generalize (if o.rely = true then d.tag && !o.lazy else !o.lazy) = m
            cases m
            · exact h3
            · exact h3.trans (ext_managed _ _ _ _)

theorem ext_udev {o : Opts} {s s' : Mgr} (a : Alloc) (pos act : Nat) (d : Dev) (ok : Bool) (e : s.udev o a pos act d ok = some s') : Ext s s' := by
  unfold Mgr.udev at e
  split at e
  · cases e; exact Ext.rfl
  · split at e
    · split at e
      · cases e; exact ext_free _ _
      · have h1 : Ext s (if act = 1 ∧ d.name.isSome then s.rename d.idx (d.name.getD []) a.text else s) := by
          split
          · exact ext_rename _ _ _ _
          · exact Ext.rfl
        generalize (if act = 1 ∧ d.name.isSome then s.rename d.idx (d.name.getD []) a.text else s) = s1 at *
        simp only at e
        split at e
        · cases e; exact h1.trans (ext_managed _ _ _ _)
        · split at e
          · cases e
          · split at e
            · cases e; exact h1.trans (ext_managed _ _ _ _)
            · cases e; exact h1
    · split at e
      · cases e; exact Ext.rfl
      · cases e; exact ext_addDev _ _ _ _ _ _

theorem step_ext {o : Opts} {zx : Bool} {s s' : Mgr} {e : Op} (h : step o zx s e = some s') : Ext s s' := by
  cases e with
  | scan a pos d ok => cases h; exact ext_addDev _ _ _ _ _ _
  | udev a pos act d ok => exact ext_udev _ _ _ _ _ h
  | manage i set ok => cases h; exact ext_managed _ _ _ _
  | friendly i name ok ready sent => cases h; exact ext_friendly _ _ _ _ _ _
  | wfd i val ok ready sent => cases h; exact ext_wfd _ _ _ _ _ _
  | status i w =>
    cases h
    unfold Mgr.status
    split
    · exact Ext.rfl
    · split
      · exact ext_emit _ _
      · exact Ext.rfl
  | started i =>
    cases h
    unfold Mgr.started
    split
    · exact Ext.rfl
    · split
      · exact Ext.rfl
      · simp only
        refine Ext.trans ?_ (ext_both _ _ _ _)
        split
        · exact Ext.rfl
        · split
          · exact ext_friendly _ _ _ _ _ _
          · exact Ext.rfl
  | lost i =>
    cases h
    split
    · exact Ext.rfl
    · split
      · exact ext_drop _ _
      · exact Ext.rfl
  | peer a pos i text running =>
    cases h
    unfold Mgr.peer
    split
    · exact Ext.rfl
    · split
      · exact Ext.rfl
      · simp only
        split
        · exact (ext_update _ _ _).trans (ext_both _ _ _ _)
        · exact ext_update _ _ _
  | gone i mac =>
    cases h
    unfold Mgr.gone
    split
    · exact Ext.rfl
    · split
      · exact Ext.rfl
      · exact ext_both _ _ _ _

/-- The signals of an event, as followed from what is visible. -/
theorem step_follow {o : Opts} {zx : Bool} {s s' : Mgr} {e : Op} (hi : Inv s) (h : step o zx s e = some s') :
    soundFrom (vis s) (s'.log.drop s.log.length) ∧ ∀ x, (s'.log.drop s.log.length).foldl (Spec.see x) (vis s x) = vis s' x := by
  obtain ⟨g, hg⟩ := step_ext h
  have hi' := step_inv hi h
  have e : (fun x => s.log.foldl (Spec.see x) none) = vis s := funext hi.track
  rw [hg, List.drop_left]
  refine ⟨?_, ?_⟩
  · have := hi'.snd
    rw [hg, soundFrom_append, e] at this
    exact this.2
  · intro x
    have := hi'.track x
    unfold Spec.seen at this
    rw [hg, List.foldl_append] at this
    rw [← this]
    congr 1
    exact (hi.track x).symm

end Verif.Wifid

namespace Verif.Daemon
open Verif.C Mirror
open Wifid (linkPath peerPath linkPre peerPre Canon Obj View Sig vis)
open Wifid.Spec (see fits note)

variable {A : List Byte → Nat → Prop} {S : Nat → Prop} {Mg : Nat → Bool → Prop}

/-- The listener knows the daemon's objects. -/
def Follows (A : List Byte → Nat → Prop) (S : Nat → Prop) (Mg : Nat → Bool → Prop) (d : D) (K : Known) : Prop := J A S Mg (vis d.m) d.px d.scan K

theorem vis_has (m : Wifid.Mgr) (mac : List Byte) (i : Nat) : vis m (.peer mac i) = (has m mac i).bind fun p => if p.pub then some none else none := by
  unfold has
  simp only [vis, Option.bind_assoc]
  rfl

theorem has_canon {d : D} (hi : Wifid.Inv d.m) {mac : List Byte} {i : Nat} {p : Wifid.Peer} (h : has d.m mac i = some p) : Canon mac ∧ p.mac = mac := by
  unfold has at h
  rw [Option.bind_eq_some_iff] at h
  obtain ⟨l, hl, hp⟩ := h
  have hm : p.mac = mac := by simpa using List.find?_some hp
  exact ⟨hm ▸ (Wifid.good_of hi.shape hl).canon p (List.mem_of_find?_eq_some hp), hm⟩

theorem seen_has {m : Wifid.Mgr} {mac : List Byte} {i : Nat} (h : vis m (.peer mac i) ≠ none) : (has m mac i).isSome = true := by
  rw [vis_has] at h
  cases e : has m mac i with
  | none => rw [e] at h; exact absurd rfl h
  | some p => rfl

theorem base_follows {o : Wifid.Opts} {zx : Bool} {d d' : D} {K : Known} (hM : ∀ i, Mg i false) (hi : Wifid.Inv d.m) (h : Follows A S Mg d K) {e : Wifid.Op} (hb : d.base o zx e = some d')
    (hS : ∀ i, S i → d'.scan i = d.scan i) : Wifid.Inv d'.m ∧ ∃ ms, d'.out = d.out ++ ms ∧ Follows A S Mg d' (ms.foldl Known.hear K) := by
  unfold D.base at hb
  rw [Option.map_eq_some_iff] at hb
  obtain ⟨m, hm, rfl⟩ := hb
  obtain ⟨h1, h2⟩ := Wifid.step_follow hi hm
  refine ⟨Wifid.step_inv hi hm, _, rfl, ?_⟩
  have h3 : J A S Mg (vis d.m) (keepPx d) (keepScan d m e) K := by
    refine J.values h ?_ ?_
    · intro mac i _ hv v a b
      unfold keepPx
      rw [if_pos (seen_has hv)]
      exact ⟨a, b⟩
    · intro i _
      refine ⟨?_, hS i⟩
      intro hs
      unfold keepScan at hs
      simp only [Bool.and_eq_true] at hs
      exact hs.1.1
  have h4 := J.sigs hM _ h3 h1
  have : (fun x => (m.log.drop d.m.log.length).foldl (see x) (vis d.m x)) = vis m := funext h2
  rw [this] at h4
  exact h4

/-- Values of a peer change. -/
theorem set_follows {d : D} {K : Known} (hi : Wifid.Inv d.m) (h : Follows A S Mg d K) (mac : List Byte) (idx : Nat) (f : PV → PV) (names : List (List Byte))
    (hok : names ≠ [] → ∀ pv v, peerShown mac pv v → (A mac idx → addrShown pv v) →
      peerShown mac (f pv) (v.say (((f pv).props mac).filter fun q => q.1 ∈ names)) ∧ (A mac idx → addrShown (f pv) (v.say (((f pv).props mac).filter fun q => q.1 ∈ names))))
    (hno : names = [] → ∀ v, peerShown mac (d.px mac idx) v → (A mac idx → addrShown (d.px mac idx) v) → peerShown mac (f (d.px mac idx)) v ∧ (A mac idx → addrShown (f (d.px mac idx)) v)) :
    (d.set mac idx f names).m = d.m ∧ (d.set mac idx f names).scan = d.scan ∧ ∃ ms, (d.set mac idx f names).out = d.out ++ ms ∧ Follows A S Mg (d.set mac idx f names) (ms.foldl Known.hear K) := by
  unfold D.set
  cases hp : has d.m mac idx with
  | none => exact ⟨rfl, rfl, [], by simp, h⟩
  | some p =>
    refine ⟨rfl, rfl, _, rfl, ?_⟩
    have hc := (has_canon hi hp).1
    unfold Follows at h ⊢
    simp only
    have hother : ∀ m' j, ¬ (m' = mac ∧ j = idx) → (if m' = mac ∧ j = idx then f (d.px mac idx) else d.px m' j) = d.px m' j := fun m' j e => if_neg e
    cases hpub : p.pub with
    | false =>
      simp only [Bool.false_and, Bool.false_eq_true, if_false, List.foldl_nil]
      refine h.values ?_ (fun i _ => ⟨id, fun _ => rfl⟩)
      intro m' j _ hv v a b
      rw [hother]
      · exact ⟨a, b⟩
      · rintro ⟨rfl, rfl⟩
        rw [vis_has, hp] at hv
        simp [hpub] at hv
    | true =>
      cases hn : names with
      | nil =>
        simp only [List.isEmpty_nil, Bool.not_true, Bool.and_false, Bool.false_eq_true, if_false, List.foldl_nil]
        refine h.values ?_ (fun i _ => ⟨id, fun _ => rfl⟩)
        intro m' j _ hv v a b
        by_cases e : m' = mac ∧ j = idx
        · obtain ⟨rfl, rfl⟩ := e
          rw [if_pos ⟨rfl, rfl⟩]
          exact hno hn v a b
        · rw [hother _ _ e]
          exact ⟨a, b⟩
      | cons n ns =>
        have hv : vis d.m (.peer mac idx) = some none := by rw [vis_has, hp]; simp [hpub]
        simp only [List.isEmpty_cons, Bool.not_false, Bool.and_true, if_true, List.foldl_cons, List.foldl_nil]
        refine h.sayPeer hc hv (typed_filter _ _ _) hother ?_
        intro v a b
        rw [if_pos ⟨rfl, rfl⟩, ← hn]
        exact hok (by rw [hn]; simp) _ v a b

theorem friendly_follows {d : D} {K : Known} (hi : Wifid.Inv d.m) (h : Follows A S Mg d K) (mac : List Byte) (idx : Nat) (x : Option (List Byte)) :
    (d.setFriendly mac idx x).m = d.m ∧ (d.setFriendly mac idx x).scan = d.scan ∧ ∃ ms, (d.setFriendly mac idx x).out = d.out ++ ms ∧ Follows A S Mg (d.setFriendly mac idx x) (ms.foldl Known.hear K) := by
  cases x with
  | none => exact ⟨rfl, rfl, [], by simp [D.setFriendly], h⟩
  | some t =>
    refine set_follows hi h mac idx _ _ ?_ (fun e => by cases e)
    intro _ pv v a b
    obtain ⟨a1, a2, a3, a4⟩ := a
    exact ⟨⟨a1, rfl, a3, a4⟩, b⟩

theorem wfd_follows {d : D} {K : Known} (hi : Wifid.Inv d.m) (h : Follows A S Mg d K) (mac : List Byte) (idx : Nat) (x : Option (List Byte)) :
    (d.setWfd mac idx x).m = d.m ∧ (d.setWfd mac idx x).scan = d.scan ∧ ∃ ms, (d.setWfd mac idx x).out = d.out ++ ms ∧ Follows A S Mg (d.setWfd mac idx x) (ms.foldl Known.hear K) := by
  cases x with
  | none => exact ⟨rfl, rfl, [], by simp [D.setWfd], h⟩
  | some t =>
    refine set_follows hi h mac idx _ _ ?_ (fun e => by cases e)
    intro _ pv v a b
    obtain ⟨a1, a2, a3, a4⟩ := a
    exact ⟨⟨a1, a2, rfl, a4⟩, b⟩

/-- The addresses of a peer in `A` change only while it is not connected. -/
def steady (A : List Byte → Nat → Prop) (d : D) : Op → Prop
  | .addr mac idx _ _ _ => A mac idx → (d.px mac idx).connected = false
  | _ => True

/-- A link in `S` does not stop to scan without a signal. -/
def told (S : Nat → Prop) (d d' : D) : Op → Prop
  | .scan .. => True
  | _ => ∀ i, S i → d'.scan i = d.scan i

theorem step_follows {o : Wifid.Opts} {zx : Bool} {d d' : D} {K : Known} (hM : ∀ i, Mg i false) (hi : Wifid.Inv d.m) (h : Follows A S Mg d K) {e : Op} (hs : step o zx d e = some d')
    (hA : steady A d e) (hS : told S d d' e) : Wifid.Inv d'.m ∧ ∃ ms, d'.out = d.out ++ ms ∧ Follows A S Mg d' (ms.foldl Known.hear K) := by
  cases e with
  | base e => exact base_follows hM hi h hs hS
  | found a pos idx mac running friendly wfd =>
    change d.found o zx a pos idx mac running friendly wfd = some d' at hs
    unfold D.found at hs
    rw [Option.bind_eq_some_iff] at hs
    obtain ⟨d1, h1, h2⟩ := hs
    have hmono : ∀ {d1 d2 : D} {e : Wifid.Op}, d1.base o zx e = some d2 → ∀ i, d2.scan i = true → d1.scan i = true := by
      intro d1 d2 e hb i hs
      unfold D.base at hb
      rw [Option.map_eq_some_iff] at hb
      obtain ⟨m, _, rfl⟩ := hb
      simp only [keepScan, Bool.and_eq_true] at hs
      exact hs.1.1
    have hscan : ∀ i, ((d1.setFriendly (Mac.format (Mac.scan zx 6 mac)) idx friendly).setWfd (Mac.format (Mac.scan zx 6 mac)) idx wfd).scan i = d1.scan i := by
      intro i
      have hset : ∀ (d : D) (m : List Byte) (i : Nat) (f : PV → PV) (n : List (List Byte)), (d.set m i f n).scan = d.scan := by
        intro d m i f n; unfold D.set; split <;> rfl
      cases friendly <;> cases wfd <;> simp [D.setFriendly, D.setWfd, hset]
    have hb1 : ∀ i, S i → d1.scan i = d.scan i := by
      intro i hSi
      have e := hS i hSi
      cases hd : d.scan i with
      | true =>
        rw [hd] at e
        have := hmono h2 i e
        rw [hscan] at this
        exact this
      | false =>
        cases hd1 : d1.scan i with
        | false => rfl
        | true => rw [hmono h1 i hd1] at hd; cases hd
    obtain ⟨i1, ms1, o1, f1⟩ := base_follows hM hi h h1 hb1
    obtain ⟨m2, _, ms2, o2, f2⟩ := friendly_follows i1 f1 (Mac.format (Mac.scan zx 6 mac)) idx friendly
    obtain ⟨m3, _, ms3, o3, f3⟩ := wfd_follows (by rw [m2]; exact i1) f2 (Mac.format (Mac.scan zx 6 mac)) idx wfd
    obtain ⟨i4, ms4, o4, f4⟩ := base_follows hM (by rw [m3, m2]; exact i1) f3 h2 (fun i hSi => by rw [hscan, hb1 i hSi]; exact hS i hSi)
    refine ⟨i4, ms1 ++ ms2 ++ ms3 ++ ms4, by rw [o4, o3, o2, o1]; simp, ?_⟩
    simp only [List.foldl_append]
    exact f4
  | conn mac idx c =>
    injection hs with hs
    subst hs
    split
    · exact ⟨hi, [], by simp, h⟩
    · obtain ⟨a, b, c⟩ := set_follows hi h mac idx (fun pv => { pv with connected := c }) [bytes "Connected", bytes "Interface", bytes "LocalAddress", bytes "RemoteAddress"] (by
        intro _ pv v a b
        obtain ⟨a1, a2, a3, a4⟩ := a
        refine ⟨⟨a1, a2, a3, rfl⟩, fun _ => ?_⟩
        cases c <;> exact ⟨rfl, rfl, rfl⟩) (fun e => by cases e)
      exact ⟨by rw [a]; exact hi, c⟩
  | addr mac idx iface loc rem =>
    injection hs with hs
    subst hs
    obtain ⟨a, b, c⟩ := set_follows hi h mac idx (fun pv => { pv with iface := iface, loc := loc, rem := rem }) [] (fun e => absurd rfl e) (by
        intro _ v a b
        refine ⟨a, fun hAm => ?_⟩
        have := b hAm
        unfold addrShown at this ⊢
        have e := hA hAm
        rw [e] at this
        simp only [e]
        exact this)
    exact ⟨by rw [a]; exact hi, c⟩
  | scan idx v =>
    injection hs with hs
    subst hs
    split
    · exact ⟨hi, [], by simp, h⟩
    · rename_i hcond
      refine ⟨hi, _, rfl, ?_⟩
      have hm : managed d.m idx = true := by
        cases e : managed d.m idx with
        | true => rfl
        | false => exact absurd (Or.inl e) hcond
      have hl : ∃ l, d.m.find idx = some l := by
        unfold managed at hm
        cases e : d.m.find idx with
        | none => rw [e] at hm; cases hm
        | some l => exact ⟨l, rfl⟩
      obtain ⟨l, hl⟩ := hl
      have hv := Wifid.vis_link hl
      refine J.sayLink (w' := Wifid.quiet l) h hv ?_ (by rfl) ?_ ?_
      · intro o
        split
        · rename_i e; rw [e]; exact hv
        · rfl
      · intro j hj; exact if_neg hj
      · intro u h1 h2 h3 h4
        refine ⟨h1, ?_, ?_, h4⟩
        · show (if idx = idx then v else d.scan idx) = true → _
          rw [if_pos rfl]; exact id
        · intro _
          show _ = if idx = idx then v else d.scan idx
          rw [if_pos rfl]; rfl

theorem run_append (o : Wifid.Opts) (zx : Bool) (a b : List Op) (d : D) : run o zx d (a ++ b) = (run o zx d a).bind fun d => run o zx d b := by
  induction a generalizing d with
  | nil => rfl
  | cons e t ih =>
    simp only [List.cons_append, run, Option.bind_assoc]
    congr 1
    funext d'
    exact ih d'

theorem run_follows {o : Wifid.Opts} {zx : Bool} (hM : ∀ i, Mg i false) (ops : List Op) : ∀ {d d' : D} {K : Known}, Wifid.Inv d.m → Follows A S Mg d K → run o zx d ops = some d' →
    (∀ a e b d1 d2, ops = a ++ e :: b → run o zx d a = some d1 → step o zx d1 e = some d2 → steady A d1 e ∧ told S d1 d2 e) →
    Wifid.Inv d'.m ∧ ∃ ms, d'.out = d.out ++ ms ∧ Follows A S Mg d' (ms.foldl Known.hear K) := by
  induction ops with
  | nil => intro d d' K hi h hr _; cases hr; exact ⟨hi, [], by simp, h⟩
  | cons e t ih =>
    intro d d' K hi h hr hc
    simp only [run, Option.bind_eq_some_iff] at hr
    obtain ⟨d1, h1, h2⟩ := hr
    obtain ⟨hA, hS⟩ := hc [] e t d d1 rfl rfl h1
    obtain ⟨i1, ms1, o1, f1⟩ := step_follows hM hi h h1 hA hS
    obtain ⟨i2, ms2, o2, f2⟩ := ih i1 f1 h2 (fun a e' b d1' d2' he hr hs => hc (e :: a) e' b d1' d2' (by rw [he]; rfl) (by simp only [run, h1, Option.bind_some]; exact hr) hs)
    exact ⟨i2, ms1 ++ ms2, by rw [o2, o1, List.append_assoc], by rw [List.foldl_append]; exact f2⟩

theorem follows_start : Follows A S Mg {} .nothing := by
  refine ⟨?_, fun _ _ => rfl, ?_, ?_, fun _ _ _ _ => rfl, ?_, ?_⟩
  · intro i w h; cases h
  · intro i h; cases h
  · intro m i x _ h; cases h
  · intro k h; exact absurd rfl h
  · intro k h; exact absurd rfl h

/-! ### Joining -/

theorem addAll_cons (K : Known) (path : List Byte) (ifs : Ifaces) (r : List (List Byte × Ifaces)) (h : (K.add path ifs).2 = true) :
    K.addAll ((path, ifs) :: r) = (K.add path ifs).1.addAll r := by
  rw [Known.addAll, if_pos h]

theorem addAll_append (l r : List (List Byte × Ifaces)) : ∀ (K : Known), (∀ a q b, l = a ++ q :: b → ((K.addAll a).add q.1 q.2).2 = true) → K.addAll (l ++ r) = (K.addAll l).addAll r := by
  induction l with
  | nil => intro K _; rfl
  | cons q t ih =>
    intro K h
    have h0 := h [] q t rfl
    have e1 : K.addAll (q :: t) = (K.add q.1 q.2).1.addAll t := addAll_cons K q.1 q.2 t h0
    have e2 : K.addAll (q :: t ++ r) = (K.add q.1 q.2).1.addAll (t ++ r) := addAll_cons K q.1 q.2 (t ++ r) h0
    rw [e1, e2]
    refine ih _ ?_
    intro a q' b he
    have := h (q :: a) q' b (by rw [he]; rfl)
    rw [addAll_cons K q.1 q.2 a h0] at this
    exact this

end Verif.Daemon
