import Verif.Proof.WifictlExact
/-! # Lemmas about the controller of the wifi daemon: selection, the end, the exit status -/
namespace Verif.Wifictl
open Verif.C Verif.Mirror

/-! ### The selected link -/

/-- Address and label. -/
def idl (l : Link) : Nat × List Byte := (l.id, l.label)

/-- The label at an address. -/
def lab (w : S) (i : Nat) : Option (List Byte) := (linkAt w i).map (·.label)

theorem lab_eq (w : S) (i : Nat) : lab w i = ((w.links.map idl).find? fun x => x.1 = i).map (·.2) := by
  unfold lab linkAt
  rw [List.find?_map, Option.map_map]
  rfl

theorem lab_same {w w' : S} (h : w'.links.map idl = w.links.map idl) (i : Nat) : lab w' i = lab w i := by
  rw [lab_eq, lab_eq, h]

theorem bare_idl {a b : List Link} (h : a.map bare = b.map bare) : a.map idl = b.map idl := by
  have := congrArg (List.map idl) h
  rw [List.map_map, List.map_map] at this
  exact this

theorem selected_eq (w : S) : selectedLink w = w.app.selected.bind (lab w) := by
  unfold selectedLink lab linkAt
  cases w.app.selected <;> rfl

/-- The selection and what identifies the links stay. -/
structure Kept (w w' : S) : Prop where
  sel : w'.app.selected = w.app.selected
  idl : w'.links.map idl = w.links.map idl

theorem Kept.rfl' (w : S) : Kept w w := ⟨rfl, rfl⟩

theorem Kept.selected {w w' : S} (h : Kept w w') : selectedLink w' = selectedLink w := by
  rw [selected_eq, selected_eq, h.sel]
  cases w.app.selected with
  | none => rfl
  | some i => exact lab_same h.idl i

theorem put_idl {w : S} {l l2 : Link} (hg : Good (w.links.map shape) w.next) (hl : l ∈ w.links) (hid : l2.id = l.id) (hlab : l2.label = l.label) : (w.putLink l2).links.map idl = w.links.map idl := by
  unfold W.putLink
  rw [List.map_map]
  apply List.map_congr_left
  intro a ha
  simp only [Function.comp]
  split
  · rename_i e
    rw [hg.uniq ha hl (e.trans hid)]
    unfold idl
    rw [hid, hlab]
  · rfl

theorem add_selected {w w' : S} {o : Obs} (h : Inv w o) {path : List Byte} {ifs : Ifaces} {e : Int} {rd : Bool}
    (hr : parseObject hooks path (some ifs) w = some (e, rd, w')) : selectedLink w' = selectedLink w := by
  obtain ⟨e', rd', w1, h1, ha, hc⟩ := add_h path ifs w
  rw [h1] at hr
  simp only [Option.some.injEq, Prod.mk.injEq] at hr
  obtain ⟨rfl, rfl, rfl⟩ := hr
  rcases hc with ⟨x, hx, hp⟩ | ⟨label, l, hl, hf, hlab, hpe, hi, hls, -⟩
  · exact Kept.selected ⟨by rw [ha], bare_idl hp.links⟩
  · rw [selected_eq, selected_eq, ha]
    cases hs : w.app.selected with
    | none => rfl
    | some i =>
      obtain ⟨a, ham, rfl⟩ := h.sel i hs
      simp only [Option.bind_some]
      unfold lab linkAt
      rw [hls, List.find?_append]
      have := linkAt_id h.rel.good ham
      unfold linkAt at this
      rw [this]
      rfl

theorem fetch_selected (ls : List (List Byte × Ifaces)) {w w' : S} {o : Obs} (h : Inv w o) {e : Int} (hr : fetch hooks ls w = some (e, w')) : selectedLink w' = selectedLink w := by
  induction ls generalizing w o with
  | nil => cases hr; rfl
  | cons q r ih =>
    obtain ⟨path, ifs⟩ := q
    rw [Mirror.fetch] at hr
    simp only [Option.bind_eq_bind, Option.bind_eq_some_iff, Prod.exists] at hr
    obtain ⟨e1, rd, w1, h1, h2⟩ := hr
    have hs := add_selected h h1
    split at h2
    · cases h2; exact hs
    · split at h2
      · cases h2; exact hs
      · rw [← hs]; exact ih (h.add h1) h2

theorem filter_lab (ls : List Link) (i j : Nat) (h : i ≠ j) : (ls.filter fun a => decide (a.id ≠ j)).find? (fun l => decide (l.id = i)) = ls.find? fun l => decide (l.id = i) := by
  induction ls with
  | nil => rfl
  | cons a ls ih =>
    rw [List.filter_cons]
    by_cases hj : a.id = j
    · rw [if_neg (by simp [hj]), List.find?_cons_of_neg (by simpa using fun e => h (e.symm.trans hj)), ih]
    · rw [if_pos (by simp [hj])]
      by_cases hi : a.id = i
      · rw [List.find?_cons_of_pos (by simpa using hi), List.find?_cons_of_pos (by simpa using hi)]
      · rw [List.find?_cons_of_neg (by simpa using hi), List.find?_cons_of_neg (by simpa using hi), ih]

theorem drop_selected {w w' : S} {o : Obs} (h : Inv w o) {path : List Byte} {e : Int} {rd : Bool} (hr : parseObject hooks path none w = some (e, rd, w')) :
    (removes (selectedLink w) path → selectedLink w' = none) ∧ (¬ removes (selectedLink w) path → selectedLink w' = selectedLink w) := by
  obtain ⟨e', rd', w1, h1, hc⟩ := drop_h path w
  rw [h1] at hr
  simp only [Option.some.injEq, Prod.mk.injEq] at hr
  obtain ⟨rfl, rfl, rfl⟩ := hr
  rcases hc with ⟨hn, x, hx, hp⟩ | ⟨label, l, hl, hf, hu⟩
  · have hk : selectedLink w1 = selectedLink w := Kept.selected ⟨by rw [hp.app], bare_idl hp.links⟩
    refine ⟨?_, fun _ => hk⟩
    rintro ⟨label, hne, hl, hs⟩
    exfalso
    obtain ⟨s, hs1, hs2⟩ := Option.map_eq_some_iff.mp hs
    rw [selected_eq] at hs1
    obtain ⟨i, hi, hla⟩ := Option.bind_eq_some_iff.mp hs1
    obtain ⟨a, ha, rfl⟩ := Option.map_eq_some_iff.mp hla
    have := (findLink_iff h.rel.good label a).mpr ⟨hne, (linkAt_mem ha).1, hs2⟩
    rw [hn label hl] at this
    cases this
  · obtain ⟨hne, hlm, hk⟩ := (findLink_iff h.rel.good label l).mp hf
    by_cases hsel : w.app.selected = some l.id
    · have h1 : selectedLink w = some l.label := by
        rw [selected_eq, hsel]
        simp only [Option.bind_some, lab, linkAt_id h.rel.good hlm, Option.map_some]
      have h2 : selectedLink w1 = none := by
        rw [selected_eq, hu.app]
        simp only [hsel, if_true, Option.bind_none]
      exact ⟨fun _ => h2, fun hr => absurd ⟨label, hne, hl, by rw [h1, Option.map_some, hk]⟩ hr⟩
    · have h2 : selectedLink w1 = selectedLink w := by
        rw [selected_eq, selected_eq, hu.app]
        simp only [hsel, if_false]
        cases hs : w.app.selected with
        | none => rfl
        | some i =>
          simp only [Option.bind_some]
          have hij : i ≠ l.id := fun e => hsel (by rw [hs, e])
          rw [lab_eq, bare_idl hu.links, ← lab_eq { w with links := w.links.filter fun a => decide (a.id ≠ l.id) }]
          unfold lab linkAt
          simp only
          rw [filter_lab _ _ _ hij]
      refine ⟨?_, fun _ => h2⟩
      rintro ⟨label2, hne2, hl2, hs⟩
      exfalso
      rw [hl] at hl2; injection hl2 with hl2; subst hl2
      obtain ⟨s, hs1, hs2⟩ := Option.map_eq_some_iff.mp hs
      rw [selected_eq] at hs1
      obtain ⟨i, hi, hla⟩ := Option.bind_eq_some_iff.mp hs1
      obtain ⟨a, ha, rfl⟩ := Option.map_eq_some_iff.mp hla
      obtain ⟨ham, rfl⟩ := linkAt_mem ha
      have hal : a.label ≠ [] := fun e => by rw [e] at hs2; exact hne (key_nil.mp hs2.symm)
      have := h.rel.good.uniqLabel ham hlm hal (by rw [hs2, hk])
      rw [this] at hi
      exact hsel hi

theorem msg_selected {w w' : S} {o : Obs} (h : Inv w o) {m : Msg} {e : Int} (hr : receive hooks w m = some (e, w')) :
    (∀ path, m = .removed path → removes (selectedLink w) path → selectedLink w' = none) ∧
    ((∀ path, m = .removed path → ¬ removes (selectedLink w) path) → selectedLink w' = selectedLink w) := by
  cases m with
  | added path ifs =>
    rw [receive] at hr
    simp only [Option.bind_eq_bind, Option.bind_eq_some_iff, Prod.exists, Option.some.injEq, Prod.mk.injEq] at hr
    obtain ⟨c, rd, w1, h1, rfl, rfl⟩ := hr
    exact ⟨(fun _ e => nomatch e), fun _ => add_selected h h1⟩
  | removed path =>
    rw [receive] at hr
    simp only [Option.bind_eq_bind, Option.bind_eq_some_iff, Prod.exists, Option.some.injEq, Prod.mk.injEq] at hr
    obtain ⟨c, rd, w1, h1, rfl, rfl⟩ := hr
    have := drop_selected h h1
    exact ⟨fun p e => by injection e with e; subst e; exact this.1, fun hx => this.2 (hx path rfl)⟩
  | changed path iface ps =>
    obtain ⟨e', w1, h1, hc⟩ := change_h path iface ps h.pnul h.rel.good
    rw [h1] at hr; cases hr
    refine ⟨(fun _ e => nomatch e), fun _ => ?_⟩
    rcases hc with ⟨x, -, hp⟩ | ⟨l, l2, hl, hp, rfl⟩
    · exact Kept.selected ⟨by rw [hp.app], bare_idl hp.links⟩
    · obtain ⟨a1, -, a3, -, -⟩ := linkProps_same hp
      exact Kept.selected ⟨rfl, put_idl h.rel.good hl a1 a3⟩
  | prov path a b =>
    refine ⟨(fun _ e => nomatch e), fun _ => ?_⟩
    rw [receive] at hr
    split at hr <;> (cases hr; rfl)
  | goNeg path a b =>
    refine ⟨(fun _ e => nomatch e), fun _ => ?_⟩
    rw [receive] at hr
    split at hr <;> (cases hr; rfl)
  | failure path a =>
    refine ⟨(fun _ e => nomatch e), fun _ => ?_⟩
    rw [receive] at hr
    split at hr <;> (cases hr; rfl)
  | objects l => exact ⟨(fun _ e => nomatch e), fun _ => fetch_selected l h hr⟩

theorem act_kept (a : Act) (w : S) : Kept w (act a w) := ⟨rfl, rfl⟩

theorem setManaged_kept {E : Env} {w w' : S} (hg : Good (w.links.map shape) w.next) {i : Nat} {v : Bool} {r : Int} (e : setManaged E i v w = some (r, w')) : Kept w w' := by
  unfold setManaged at e
  simp only [Option.bind_eq_bind, Option.bind_eq_some_iff] at e
  obtain ⟨l, hl, e⟩ := e
  split at e
  · cases e; exact .rfl' _
  · simp only [Option.some.injEq, Prod.mk.injEq] at e
    rw [← e.2]
    split
    · exact ⟨rfl, put_idl (w := act _ w) hg (linkAt_mem hl).1 rfl rfl⟩
    · exact ⟨rfl, rfl⟩

theorem setScan_kept {E : Env} {w w' : S} {i : Nat} {v : Bool} {r : Int} (e : setScan E i v w = some (r, w')) : Kept w w' := by
  unfold setScan at e
  simp only [Option.bind_eq_bind, Option.bind_eq_some_iff] at e
  obtain ⟨l, hl, e⟩ := e
  split at e
  · cases e; exact .rfl' _
  · simp only [Option.some.injEq, Prod.mk.injEq] at e
    rw [← e.2]
    split
    · refine ⟨rfl, ?_⟩
      change (w.links.map _).map idl = _
      rw [List.map_map]
      rfl
    · exact ⟨rfl, rfl⟩

theorem setName_kept {E : Env} {w w' : S} {i : Nat} {v : List Byte} {r : Int} (e : setName E i v w = some (r, w')) : Kept w w' := by
  unfold setName at e
  simp only [Option.bind_eq_bind, Option.bind_eq_some_iff] at e
  obtain ⟨l, hl, c, hc, e⟩ := e
  split at e
  · cases e; exact .rfl' _
  · cases e; exact ⟨rfl, rfl⟩

theorem setWfd_kept {E : Env} {w w' : S} {i : Nat} {v : List Byte} {r : Int} (e : setWfd E i v w = some (r, w')) : Kept w w' := by
  unfold setWfd at e
  simp only [Option.bind_eq_bind, Option.bind_eq_some_iff] at e
  obtain ⟨l, hl, c, hc, e⟩ := e
  split at e
  · cases e; exact .rfl' _
  · cases e; exact ⟨rfl, rfl⟩

theorem handler_kept {E : Env} {w w' : S} (hG : Good (w.links.map shape) w.next) {cmd : List Byte} {g : List (List Byte) → S → Option (Int × S)} (hg : (cmd, g) ∈ handlers E)
    (hc : cmd ≠ bytes "select") {args : List (List Byte)} {r : Int} (e : g args w = some (r, w')) : Kept w w' := by
  simp only [handlers, List.mem_cons, Prod.mk.injEq, List.not_mem_nil, or_false] at hg
  rcases hg with ⟨-, rfl⟩ | ⟨rfl, -⟩ | ⟨-, rfl⟩ | ⟨-, rfl⟩ | ⟨-, rfl⟩ | ⟨-, rfl⟩ | ⟨-, rfl⟩ | ⟨-, rfl⟩ | ⟨-, rfl⟩ | ⟨-, rfl⟩
  · simp only [cmdList, Option.bind_eq_bind, Option.bind_eq_some_iff] at e
    obtain ⟨ps, -, e⟩ := e
    cases e; exact ⟨rfl, rfl⟩
  · exact absurd rfl hc
  · unfold cmdShow at e
    split at e
    · split at e
      · cases e; exact .rfl' _
      · cases e; exact ⟨rfl, rfl⟩
    · split at e
      · cases e; exact .rfl' _
      · obtain ⟨l, -, e⟩ := Option.map_eq_some_iff.mp e
        cases e; exact ⟨rfl, rfl⟩
  · unfold cmdName at e
    split at e
    · cases e; exact .rfl' _
    · split at e
      · cases e; exact .rfl' _
      · exact setName_kept e
    · split at e
      · cases e; exact .rfl' _
      · exact setName_kept e
  · unfold cmdManaged at e
    split at e
    · cases e; exact .rfl' _
    · split at e
      · cases e; exact .rfl' _
      · exact setManaged_kept hG e
    · split at e
      · cases e; exact .rfl' _
      · exact setManaged_kept hG e
  · unfold cmdScan at e
    split at e
    · cases e; exact .rfl' _
    · split at e
      · cases e; exact .rfl' _
      · simp only [Option.bind_eq_bind, Option.bind_eq_some_iff] at e
        obtain ⟨l, hl, e⟩ := e
        split at e
        · cases e; exact .rfl' _
        · exact setScan_kept e
  · unfold cmdConnect at e
    split at e
    · cases e; exact .rfl' _
    · split at e
      · cases e; exact .rfl' _
      · simp only [Option.bind_eq_bind, Option.bind_eq_some_iff] at e
        obtain ⟨l, hl, e⟩ := e
        split at e
        · cases e; exact .rfl' _
        · cases e; exact ⟨rfl, rfl⟩
  · unfold cmdDisconnect at e
    split at e
    · cases e; exact .rfl' _
    · split at e
      · cases e; exact .rfl' _
      · simp only [Option.bind_eq_bind, Option.bind_eq_some_iff] at e
        obtain ⟨l, hl, e⟩ := e
        split at e
        · cases e; exact .rfl' _
        · cases e; exact ⟨rfl, rfl⟩
  · cases e; exact ⟨rfl, rfl⟩
  · cases e; exact ⟨rfl, rfl⟩

theorem command_kept {E : Env} {rl : Bool} {words : List (List Byte)} {w w' : S} (hG : Good (w.links.map shape) w.next) (hc : words.head? ≠ some (bytes "select")) {r : Int}
    (e : command E rl words w = some (r, w')) : Kept w w' := by
  rcases command_inv (E := E) (rl := rl) (words := words) (w := w) with ⟨r2, h1⟩ | ⟨cmd, args, g, hw, hg, ⟨-, h1⟩ | ⟨r2, r', w2, h1, h2⟩⟩
  · rw [h1] at e; cases e; exact .rfl' _
  · rw [h1] at e; cases e
  · rw [h2] at e; cases e
    refine handler_kept hG hg (fun e => hc ?_) h1
    rw [hw, e]; rfl

/-- What is done to a selected link is what is done to it by name. -/
theorem search_label {w : S} (hg : Good (w.links.map shape) w.next) {l : Link} (hl : l ∈ w.links) (hn : l.label ≠ []) : w.searchLink l.label = some l := by
  unfold W.searchLink
  rw [if_neg hn, (findLink_iff hg l.label l).mpr ⟨hn, hl, rfl⟩]

/-! ### The end -/

theorem stopScans_eq (E : Env) (ls : List Link) {w : S} (hg : Good (w.links.map shape) w.next) (hl : ∀ l ∈ ls, l ∈ w.links) :
    ∃ w', stopScans E ls w = some w' ∧ w'.links = w.links ∧ w'.next = w.next ∧
      w'.app.log = w.app.log ++ (ls.filter fun l => l.haveScan && l.scanning).map fun l => setReq l "P2PScanning" (.b false) := by
  induction ls generalizing w with
  | nil => exact ⟨w, rfl, rfl, rfl, by simp⟩
  | cons l ls ih =>
    rw [stopScans]
    have hlm := hl l (by simp)
    have hrest : ∀ k ∈ ls, k ∈ w.links := fun k hk => hl k (by simp [hk])
    by_cases hs : l.haveScan = true
    · rw [if_pos hs]
      simp only [setScan, linkAt_id hg hlm, Option.bind_eq_bind, Option.bind_some]
      by_cases hsc : l.scanning = false
      · rw [if_pos hsc]
        obtain ⟨w', h1, h2, h3, h4⟩ := ih hg hrest
        refine ⟨w', h1, h2, h3, ?_⟩
        rw [h4, List.filter_cons_of_neg (by simp [hsc])]
      · rw [if_neg hsc]
        simp only [Bool.and_false, Bool.false_eq_true, if_false, Option.map_some, Option.bind_some]
        obtain ⟨w', h1, h2, h3, h4⟩ := ih (w := act (setReq l "P2PScanning" (.b false)) w) hg hrest
        refine ⟨w', h1, h2, h3, ?_⟩
        rw [h4, List.filter_cons_of_pos (by simp [hs, hsc]), List.map_cons]
        change (w.app.log ++ [_]) ++ _ = _
        rw [List.append_assoc]
        rfl
    · rw [if_neg hs]
      obtain ⟨w', h1, h2, h3, h4⟩ := ih hg hrest
      refine ⟨w', h1, h2, h3, ?_⟩
      rw [h4, List.filter_cons_of_neg (by simp [hs])]

theorem finish_log {w w' : S} (e : finish w = some w') : w'.app.log = w.app.log :=
  (hooks_log w.app.log).freeLinks _ e rfl

/-! ### The result of commands -/

theorem call_result (E : Env) {a : Act} {w : S} (ha : isRequest a) : (call E a w).1 ≤ 0 ∧ ((call E a w).1 < 0 ↔ ∃ b, (call E a w).2.app.log = w.app.log ++ [b] ∧ isRequest b ∧ E.bus w.app.log.length < 0) := by
  unfold call
  simp only
  refine ⟨by omega, ?_⟩
  constructor
  · intro h
    exact ⟨a, rfl, ha, by omega⟩
  · rintro ⟨b, -, -, h⟩
    omega

/-- A command fails if a request fails. -/
def Failed (E : Env) (w : S) (r : Int) (w' : S) : Prop := r ≤ 0 ∧ (r < 0 ↔ ∃ b, w'.app.log = w.app.log ++ [b] ∧ isRequest b ∧ E.bus w.app.log.length < 0)

theorem Failed.same (E : Env) (w : S) : Failed E w 0 w := by
  refine ⟨by omega, ?_⟩
  constructor
  · intro h; omega
  · rintro ⟨b, h, -⟩
    have := congrArg List.length h
    simp at this

theorem Failed.shown (E : Env) (w : S) {a : Act} (ha : ¬ isRequest a) : Failed E w 0 (act a w) := by
  refine ⟨by omega, ?_⟩
  constructor
  · intro h; omega
  · rintro ⟨b, h, hb, -⟩
    have : w.app.log ++ [a] = w.app.log ++ [b] := h
    have := List.append_cancel_left this
    simp only [List.cons.injEq, and_true] at this
    subst this
    exact absurd hb ha

theorem Failed.log {E : Env} {w w1 w2 : S} {r : Int} (h : Failed E w r w1) (e : w2.app.log = w1.app.log) : Failed E w r w2 := by
  unfold Failed
  rw [e]
  exact h

theorem setName_failed {E : Env} {w w' : S} {i : Nat} {v : List Byte} {r : Int} (e : setName E i v w = some (r, w')) : Failed E w r w' := by
  unfold setName at e
  simp only [Option.bind_eq_bind, Option.bind_eq_some_iff] at e
  obtain ⟨l, hl, c, hc, e⟩ := e
  split at e
  · cases e; exact .same _ _
  · cases e; exact call_result E trivial

theorem setManaged_failed {E : Env} {w w' : S} {i : Nat} {v : Bool} {r : Int} (e : setManaged E i v w = some (r, w')) : Failed E w r w' := by
  unfold setManaged at e
  simp only [Option.bind_eq_bind, Option.bind_eq_some_iff] at e
  obtain ⟨l, hl, e⟩ := e
  split at e
  · cases e; exact .same _ _
  · simp only [Option.some.injEq, Prod.mk.injEq] at e
    rw [← e.1, ← e.2]
    have h : Failed E w (call E (setReq l "Managed" (.b v)) w).1 (call E (setReq l "Managed" (.b v)) w).2 := call_result E trivial
    refine h.log ?_
    split <;> rfl

theorem notRequest_show {n : List Byte} {w : S} {a : Act} (h : showWhat n w = some a) : ¬ isRequest a := by
  unfold showWhat at h
  split at h
  · cases h; exact id
  · split at h
    · cases h; exact id
    · split at h
      · cases h; exact id
      · obtain ⟨p, -, rfl⟩ := Option.map_eq_some_iff.mp h; exact id

theorem list_failed {E : Env} {w w' : S} {r : Int} (e : cmdList w = some (r, w')) : Failed E w r w' := by
  simp only [cmdList, Option.bind_eq_bind, Option.bind_eq_some_iff] at e
  obtain ⟨ps, -, e⟩ := e
  cases e; exact .shown _ _ id

theorem show_failed {E : Env} {w w' : S} {args : List (List Byte)} {r : Int} (e : cmdShow args w = some (r, w')) : Failed E w r w' := by
  unfold cmdShow at e
  split at e
  · split at e
    · cases e; exact .same _ _
    · rename_i a ha
      cases e; exact .shown _ _ (notRequest_show ha)
  · split at e
    · cases e; exact .same _ _
    · obtain ⟨l, -, e⟩ := Option.map_eq_some_iff.mp e
      cases e; exact .shown _ _ id

theorem name_failed {E : Env} {w w' : S} {args : List (List Byte)} {r : Int} (e : cmdName E args w = some (r, w')) : Failed E w r w' := by
  unfold cmdName at e
  split at e
  · cases e; exact .same _ _
  · split at e
    · cases e; exact .same _ _
    · exact setName_failed e
  · split at e
    · cases e; exact .same _ _
    · exact setName_failed e

theorem managed_failed {E : Env} {w w' : S} {args : List (List Byte)} {r : Int} (e : cmdManaged E args w = some (r, w')) : Failed E w r w' := by
  unfold cmdManaged at e
  split at e
  · cases e; exact .same _ _
  · split at e
    · cases e; exact .same _ _
    · exact setManaged_failed e
  · split at e
    · cases e; exact .same _ _
    · exact setManaged_failed e

theorem connect_failed {E : Env} {w w' : S} {args : List (List Byte)} {r : Int} (e : cmdConnect E args w = some (r, w')) : Failed E w r w' := by
  unfold cmdConnect at e
  split at e
  · cases e; exact .same _ _
  · split at e
    · cases e; exact .same _ _
    · simp only [Option.bind_eq_bind, Option.bind_eq_some_iff] at e
      obtain ⟨l, hl, e⟩ := e
      split at e
      · cases e; exact .same _ _
      · cases e; exact call_result E trivial

theorem disconnect_failed {E : Env} {w w' : S} {args : List (List Byte)} {r : Int} (e : cmdDisconnect E args w = some (r, w')) : Failed E w r w' := by
  unfold cmdDisconnect at e
  split at e
  · cases e; exact .same _ _
  · split at e
    · cases e; exact .same _ _
    · simp only [Option.bind_eq_bind, Option.bind_eq_some_iff] at e
      obtain ⟨l, hl, e⟩ := e
      split at e
      · cases e; exact .same _ _
      · cases e; exact call_result E trivial

theorem passed_failed {E : Env} {w w' : S} {f : Option (Int × S)} {r : Int} (hf : ∀ r w', f = some (r, w') → Failed E w r w')
    (e : (f.map fun x => (passed x.1, x.2)) = some (r, w')) : Failed E w r w' := by
  obtain ⟨⟨r2, w2⟩, h1, h2⟩ := Option.map_eq_some_iff.mp e
  cases h2
  obtain ⟨h3, h4⟩ := hf _ _ h1
  refine ⟨?_, by rw [← h4]; exact passed_neg r2 h3⟩
  unfold passed
  have : EINVAL = 22 := rfl
  split <;> omega

theorem unknown_command (E : Env) (w : S) {cmd : List Byte} {args : List (List Byte)} (hn : args.length < W32) (h : Cli.chosen false (table E) cmd = none) (hh : cmd ≠ bytes "help") :
    command E false (cmd :: args) w = some (-Cli.EAGAIN, w) := by
  unfold command Cli.cliDo
  simp only
  rw [Cli.doLoop_eq _ _ _ _ _ _ hn _ (table_argc E), h]
  simp only
  rw [if_neg hh]

theorem wrong_number (E : Env) (w : S) {cmd : List Byte} {args : List (List Byte)} {c : Cli.Cmd (Option S)} (hn : args.length < W32) (h : Cli.chosen false (table E) cmd = some c)
    (hl : ¬ Cli.legal c args.length) : command E false (cmd :: args) w = some (-EINVAL, w) := by
  unfold command Cli.cliDo
  simp only
  rw [Cli.doLoop_eq _ _ _ _ _ _ hn _ (table_argc E), h]
  simp only
  rw [if_neg hl]

theorem chosen_none (E : Env) {cmd : List Byte} (h : cmd ≠ bytes "list" ∧ cmd ≠ bytes "show" ∧ cmd ≠ bytes "set-friendly-name" ∧ cmd ≠ bytes "set-managed" ∧ cmd ≠ bytes "connect" ∧
    cmd ≠ bytes "disconnect" ∧ cmd ≠ bytes "help") : Cli.chosen false (table E) cmd = none := by
  obtain ⟨h1, h2, h3, h4, h5, h6, h7⟩ := h
  unfold Cli.chosen
  rw [List.find?_eq_none]
  intro c hc
  simp only [table, List.mem_cons, List.not_mem_nil, or_false] at hc
  rcases hc with rfl | rfl | rfl | rfl | rfl | rfl | rfl | rfl | rfl | rfl | rfl <;> simp [Cli.usable, *]

theorem help_command (E : Env) (w : S) {args : List (List Byte)} (hn : args.length < W32) : command E false (bytes "help" :: args) w = some (0, w) := by
  unfold command Cli.cliDo
  simp only
  rw [Cli.doLoop_eq _ _ _ _ _ _ hn _ (table_argc E), show Cli.chosen false (table E) (bytes "help") = some (row E 10 (by decide)) from rfl]
  simp only
  rw [if_pos (by change (0 : Int) ≤ (args.length : Int); omega), show (row E 10 (by decide)).fn = none from rfl]
  simp only
  rw [if_pos True.intro]
  unfold Cli.help
  simp only [helpLoop_id]

end Verif.Wifictl
