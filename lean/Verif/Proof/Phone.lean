import Verif.Spec.Phone
import Verif.Props.Event
import Verif.Props.Ask
import Verif.Props.P2p
import Verif.Proof.BusWords
/-! # Helper lemmas: a device asks to be connected -/
namespace Verif.Phone
open Verif.C Spec

/-- What the device has proposed when it asks. -/
def proposal (y : P2p.Peer) : P2p.Peer := if y.prov = none then { y with prov := some (bytes "pbc"), pin := none } else y

/-- The state with the proposal. -/
def proposed (s : P2p.S) (p : Nat) (y : P2p.Peer) : P2p.S := { s with pheap := P2p.upd s.pheap p (some (proposal y)) }

theorem proposal_prov (y : P2p.Peer) : ∃ t, (proposal y).prov = some t := by
  unfold proposal
  split
  · exact ⟨_, rfl⟩
  · rename_i h
    exact Option.ne_none_iff_exists'.mp h

theorem proposal_same (y : P2p.Peer) : (proposal y).mac = y.mac ∧ (proposal y).shown = y.shown ∧ (proposal y).g = y.g ∧ (proposal y).remote = y.remote ∧
    (proposal y).connected = y.connected := by
  unfold proposal
  split <;> exact ⟨rfl, rfl, rfl, rfl, rfl⟩

theorem proposal_answer (y : P2p.Peer) : answer (proposal y).prov (proposal y).pin = answer y.prov y.pin := by
  unfold proposal
  split
  · rename_i h
    rw [h]; rfl
  · rfl

theorem proposal_pin {y : P2p.Peer} (h : PinOk y.pin) : PinOk (proposal y).pin := by
  unfold proposal
  split
  · intro k e; cases e
  · exact h

theorem canon_mac {s : P2p.S} (h : P2p.Inv s) {p : Nat} {y : P2p.Peer} (hp : s.pheap p = some y) : Wifid.Canon y.mac := by
  obtain ⟨m, hm⟩ := h.g.i.mac p y hp
  exact ⟨_, Mac.scan_length s.zx 6 m, hm⟩

theorem canon_norm {s : P2p.S} {m : List Byte} (h : Wifid.Canon m) : s.norm m = m := Wifid.canon_again h s.zx

theorem hex_plain : ∀ c : Byte, ((∀ x ∈ [Mac.hexDigit (c.toNat / 16), Mac.hexDigit (c.toNat % 16)],
    x ≠ 0 ∧ x ≠ ch ' ' ∧ x ≠ 9 ∧ x ≠ 10 ∧ x ≠ 11 ∧ x ≠ ch '"' ∧ x ≠ ch '\'' ∧ x ≠ ch '\\' ∧ x ≠ ch '=' ∧ x ≠ ch '@')) := Wifid.each_byte (by decide +kernel)

theorem canon_chars {m : List Byte} (h : Wifid.Canon m) :
    ∀ x ∈ m, x ≠ 0 ∧ x ≠ ch ' ' ∧ x ≠ 9 ∧ x ≠ 10 ∧ x ≠ 11 ∧ x ≠ ch '"' ∧ x ≠ ch '\'' ∧ x ≠ ch '\\' ∧ x ≠ ch '=' ∧ x ≠ ch '@' := by
  obtain ⟨bs, hb, rfl⟩ := h
  match bs, hb with
  | [a, b, c, d, e, f], _ =>
    have h58 : (58 : Byte) ≠ 0 ∧ (58 : Byte) ≠ ch ' ' ∧ (58 : Byte) ≠ 9 ∧ (58 : Byte) ≠ 10 ∧ (58 : Byte) ≠ 11 ∧ (58 : Byte) ≠ ch '"' ∧ (58 : Byte) ≠ ch '\'' ∧
      (58 : Byte) ≠ ch '\\' ∧ (58 : Byte) ≠ ch '=' ∧ (58 : Byte) ≠ ch '@' := by decide
    intro x hx
    simp only [Mac.format, Mac.hex2, List.cons_append, List.nil_append, List.mem_cons, List.not_mem_nil, or_false] at hx
    have k := fun c : Byte => hex_plain c
    rcases hx with h | h | h | h | h | h | h | h | h | h | h | h | h | h | h | h | h <;> subst h <;>
      first | exact h58 | exact k _ _ (List.mem_cons_self ..) | exact k _ _ (List.mem_cons_of_mem _ (List.mem_cons_self ..))

theorem canon_unquoted {m : List Byte} (h : Wifid.Canon m) : Ask.Spec.Unquoted m := fun c hc =>
  let k := canon_chars h c hc; ⟨k.2.1, k.2.2.1, k.2.2.2.1, k.2.2.2.2.1, k.2.2.2.2.2.1, k.2.2.2.2.2.2.2.1⟩

theorem drop_added {α : Type} (a b : List α) : (a ++ b).drop a.length = b := List.drop_left

theorem take_label {m : List Byte} (h : Wifid.Canon m) (i : Nat) : (Daemon.peerLabel m i).takeWhile (· ≠ ch '@') = m := by
  unfold Daemon.peerLabel
  rw [List.takeWhile_append_of_pos (fun x hx => by simpa using (canon_chars h x hx).2.2.2.2.2.2.2.2.2), List.takeWhile_cons, if_neg (by simp), List.append_nil]

theorem after_label {m : List Byte} (h : Wifid.Canon m) (i : Nat) : Mirror.afterAt (Daemon.peerLabel m i) = some (dec i) := by
  unfold Mirror.afterAt Daemon.peerLabel
  rw [List.dropWhile_append_of_pos (fun x hx => by simpa using (canon_chars h x hx).2.2.2.2.2.2.2.2.2), List.dropWhile_cons, if_neg (by simp)]

/-- The event of the request. -/
theorem negotiation_step {s : P2p.S} (h : P2p.Inv s) (hb : s.bus = true) {p : Nat} {y : P2p.Peer} (hp : s.pheap p = some y) (hs : y.shown = true) (hg : y.g = none) :
    s.step (.negotiation y.mac) = some ((proposed s p y).emit (.negotiation p)) := by
  have hf := h.g.findPeer hp rfl
  simp only [P2p.S.step, P2p.Op.fromWpas, hb, Bool.not_true, Bool.and_false, Bool.false_eq_true, if_false, P2p.S.handle, hf, hp, hg, hs, Option.isNone_none, Bool.and_true,
    P2p.S.emitIf, if_true]
  congr 2
  unfold proposed proposal
  split
  · simp only [P2p.S.setPeer, hg, hs]
  · rw [← hp, P2p.upd_self]

/-- The event of a proposal. -/
theorem provision_step {s : P2p.S} (h : P2p.Inv s) (hb : s.bus = true) {p : Nat} {y : P2p.Peer} (hp : s.pheap p = some y) (hs : y.shown = true) (w : List Byte)
    (k : Option (List Byte)) : s.step (.provision y.mac w k true) = some ((s.setPeer p { y with prov := some w, pin := k }).emit (.provision p)) := by
  have hf := h.g.findPeer hp rfl
  simp [P2p.S.step, P2p.Op.fromWpas, hb, P2p.S.handle, hf, hp, hs, P2p.S.emitIf]

theorem Inv_step {s s' : P2p.S} (h : P2p.Inv s) {op : P2p.Op} (e : s.step op = some s') : P2p.Inv s' := by
  refine P2p.Inv.run [op] h ?_
  simp [P2p.S.run, e]

/-- The call that takes the proposal. -/
theorem connect_step {s : P2p.S} (h : P2p.Inv s) (hr : s.running = true) {p : Nat} {y : P2p.Peer} (hp : s.pheap p = some y) (hs : y.shown = true) (hg : y.g = none)
    {t : List Byte} (ht : y.prov = some t) :
    s.step (.connect y.mac none none true) = some (
      if s.pending.isSome ∧ s.pending ≠ some p then s.emit (.result (-114))
      else if answer y.prov y.pin = none then s.emit (.result (-EINVAL))
      else (({ s with pending := some p } : P2p.S).emit (.connect y.mac t (if t = bytes "pbc" then none else y.pin))).emit (.result 0)) := by
  have hm := canon_mac h hp
  have hf : s.findPeer (s.norm y.mac) = some p := by rw [canon_norm hm]; exact h.g.findPeer hp rfl
  simp only [P2p.S.step, P2p.Op.fromWpas, Bool.false_and, Bool.false_eq_true, if_false, P2p.S.handle, hf, hp, Option.any_some, hs, if_true, P2p.S.connect, hr,
    Bool.true_eq_false, hg, Option.isSome_none]
  by_cases hq : s.pending.isSome ∧ s.pending ≠ some p
  · rw [if_pos hq, if_pos hq]
  rw [if_neg hq, if_neg hq]
  have e1 : ((none : Option (List Byte)).orElse fun _ => y.prov).getD (bytes "pbc") = t := by rw [ht]; rfl
  have e2 : ((none : Option (List Byte)).orElse fun _ => y.pin) = y.pin := rfl
  simp only [e1, e2]
  rw [ht]
  have key : answer (some t) y.pin = none ↔
      ¬ (t = bytes "pbc" ∨ ((t = bytes "display" ∨ t = bytes "pin" ∨ t = bytes "keypad") ∧ y.pin ≠ none ∧ y.pin ≠ some [])) := by
    unfold answer
    by_cases h1 : t = bytes "pbc"
    · simp [h1]
    · simp only [if_neg h1, h1, false_or]
      by_cases h2 : t = bytes "display" ∨ t = bytes "pin" ∨ t = bytes "keypad"
      · simp only [if_pos h2, h2, true_and]
        cases y.pin with
        | none => simp
        | some k => by_cases h3 : k = [] <;> simp [h3]
      · simp [if_neg h2, h2]
  by_cases ha : answer (some t) y.pin = none
  · rw [if_pos ha, if_pos (key.mp ha)]
  · rw [if_neg ha, if_neg (fun hn => ha (key.mpr hn))]

/-- The controller after it has called `Connect`. -/
def accepting (q : Mirror.Peer) (w : Sinkctl.S) : Sinkctl.S :=
  { w with app := { w.app with log := w.app.log ++ [.accept q.label (bytes "auto") []], pending := some q.id, scanT := true } }

/-- The controller hears of the request. -/
theorem goNeg_run (E : Sinkctl.Env) {w : Sinkctl.S} {path a b : List Byte} {q : Mirror.Peer} (hk : w.peerAt path = some q) (hl : w.app.runLink = some q.l)
    (hd : q.wfd.getD [] ≠ []) (hi : w.app.runPeer = none) :
    Sinkctl.run E w [.msg (.goNeg path a b)] = some (accepting q w) := by
  simp only [Sinkctl.run, Sinkctl.step, Mirror.receive, hk, Sinkctl.hooks]
  unfold Sinkctl.onGoNeg
  rw [if_neg (by simp [Sinkctl.ignored, hl, hd])]
  rw [hi]
  rfl

/-- The controller hears of the proposal: it only prints it. -/
theorem prov_run (E : Sinkctl.Env) (w : Sinkctl.S) (path a b : List Byte) : Sinkctl.run E w [.msg (.prov path a b)] = some w := by
  simp only [Sinkctl.run, Sinkctl.step, Mirror.receive, Sinkctl.hooks]
  cases w.peerAt path <;> rfl

/-- A line is read. -/
theorem line_step (jk : Nat → Byte) (env : Event.Env) (E : Sinkctl.Env) (W : World) {d name : List Byte} {ps : List Event.Spec.Piece} (hl : Line d name ps)
    (hn : Wpas.Spec.Plain name) {o : P2p.Op} (ho : ∀ x, Event.Spec.Says env x name ps (.op o)) {s1 : P2p.S} (hs : W.s.step o = some s1) :
    step jk env E W (.line d) = exchange jk E W s1 := by
  obtain ⟨x, level, hv, hsp⟩ := hl.text
  obtain ⟨m, hr, hsay, -⟩ := Event.line_means jk env d x level name ps hl.short hsp hn hv hl.ok
  simp only [step, hr, (hsay _ (ho x)).2, Option.bind_some, Event.Act.run, hs]

/-- The whole exchange that follows a request. -/
theorem request_exchange (jk : Nat → Byte) (E : Sinkctl.Env) {W : World} {p : Nat} {y : P2p.Peer} {q : Mirror.Peer} (h : Meet W p y q) {t : List Byte}
    (ht : (proposal y).prov = some t) {s2 : P2p.S} (hc : ((proposed W.s p y).emit (.negotiation p)).step (.connect y.mac none none true) = some s2) {ds : List (List Byte)}
    (hd : requests jk (s2.log.drop W.s.log.length) = some ds) :
    exchange jk E W ((proposed W.s p y).emit (.negotiation p)) =
      some { idx := W.idx, s := s2, w := accepting q W.w, sent := W.sent ++ ds } := by
  obtain ⟨zx, ops, hre⟩ := h.reach
  have hI := P2p.reached hre
  have hm := canon_mac hI h.peer
  have h1 : told W.idx W.s ((proposed W.s p y).emit (.negotiation p)) =
      [.msg (.goNeg (Wifid.peerPath y.mac W.idx) t ((proposal y).pin.getD []))] := by
    unfold told
    have : ((proposed W.s p y).emit (.negotiation p)).log = W.s.log ++ [.negotiation p] := rfl
    rw [this, drop_added]
    have hpp : ((proposed W.s p y).emit (.negotiation p)).pheap p = some (proposal y) := P2p.upd_same _ _ _
    simp only [List.filterMap_cons, signal, hpp, Option.bind_some, asks, ht, Option.map_some, List.filterMap_nil, (proposal_same y).1, List.map_cons, List.map_nil]
  unfold exchange
  rw [h1, goNeg_run E h.known h.link h.display h.idle, Option.bind_some]
  have h2 : calls W.idx W.w (accepting q W.w) = [.connect y.mac none none true] := by
    unfold calls
    show ((W.w.app.log ++ [_]).drop _).filterMap _ = _
    rw [drop_added]
    simp only [List.filterMap_cons, called, h.label, after_label hm, if_true, take_label hm, List.filterMap_nil, given]
    simp
  rw [h2]
  simp only [P2p.S.run, hc, Option.bind_some, hd, Option.map_some]

end Verif.Phone
