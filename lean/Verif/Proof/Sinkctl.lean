import Verif.Spec.Sinkctl
import Verif.Proof.MirrorApp
/-! # Lemmas about the sink controller: its own variables -/
namespace Verif.Sinkctl
open Verif.C Verif.Mirror

/-- Requests that do not matter for sessions. -/
def plain : Act → Bool
  | .scan .. | .wfd .. | .managed .. | .name .. | .accept .. => true
  | _ => false

/-- Only variables that do not matter for sessions change. -/
structure Calm (c c' : Ctl) : Prop where
  runPeer : c'.runPeer = c.runPeer
  pid : c'.pid = c.pid
  isOpen : c'.isOpen = c.isOpen
  sinkT : c'.sinkT = c.sinkT
  time : c'.time = c.time
  conn : c'.conn = c.conn
  log : ∃ t, c'.log = c.log ++ t ∧ ∀ a ∈ t, plain a = true

theorem Calm.rfl' (c : Ctl) : Calm c c := ⟨rfl, rfl, rfl, rfl, rfl, rfl, [], by simp, by simp⟩

theorem Calm.trans {a b c : Ctl} (h : Calm a b) (g : Calm b c) : Calm a c := by
  obtain ⟨t, ht, ht'⟩ := h.log
  obtain ⟨u, hu, hu'⟩ := g.log
  refine ⟨g.runPeer.trans h.runPeer, g.pid.trans h.pid, g.isOpen.trans h.isOpen, g.sinkT.trans h.sinkT, g.time.trans h.time, g.conn.trans h.conn, t ++ u, by rw [hu, ht, List.append_assoc], ?_⟩
  intro x hx
  rcases List.mem_append.mp hx with h | h
  · exact ht' x h
  · exact hu' x h

/-- `sink_timeout_fn`. -/
inductive Fn (E : Env) (c : Ctl) : Ctl → Prop
  | skip : Fn E c { c with sinkT := none }
  | yes (t : Option (List Byte)) : c.runPeer ≠ none → c.isOpen = false → (E.acc c.log.length && t.isSome) = true →
      Fn E c { c with sinkT := none, log := c.log ++ [.connect t], isOpen := true }
  | giveUp (t : Option (List Byte)) : c.runPeer ≠ none → c.isOpen = false → 3 ≤ c.time → (E.acc c.log.length && t.isSome) = false →
      Fn E c { c with sinkT := none, log := c.log ++ [.connect t], time := (c.time + 1) % W32 }
  | again (t : Option (List Byte)) : c.runPeer ≠ none → c.isOpen = false → c.time < 3 → (E.acc c.log.length && t.isSome) = false →
      Fn E c { c with log := c.log ++ [.connect t], time := (c.time + 1) % W32, sinkT := some ((c.time + 1) % W32) }

/-- The elementary changes of the controller's variables; the last four are caused by the sink, and occur only if `ses` is set. -/
inductive Prim (E : Env) (ses : Bool) : Ctl → Ctl → Prop
  | calm {c c' : Ctl} : Calm c c' → Prim E ses c c'
  | beg {c : Ctl} (i : Nat) : c.runPeer = none → Prim E ses c { c with runPeer := some i, time := 1, sinkT := some 1, conn := false, log := c.log ++ [.running i] }
  | fin {c : Ctl} (i : Nat) : c.runPeer = some i → c.pid = none →
      Prim E ses c { c with runPeer := none, sinkT := none, isOpen := false, log := c.log ++ [.close, .stopped i] }
  | finKill {c : Ctl} (i p : Nat) : c.runPeer = some i → c.pid = some p →
      Prim E ses c { c with runPeer := none, sinkT := none, isOpen := false, pid := none, log := c.log ++ [.kill p, .close, .stopped i] }
  | timer {c c' : Ctl} : c.sinkT ≠ none → Fn E c c' → Prim E ses c c'
  | up {c : Ctl} : ses = true → c.isOpen = true → Prim E ses c { c with conn := true }
  | down {c c' : Ctl} : ses = true → c.isOpen = true → Fn E { c with isOpen := false } c' → Prim E ses c c'
  | lost {c : Ctl} : ses = true → c.isOpen = true → Prim E ses c { c with isOpen := false, conn := false }
  | spawn {c : Ctl} (p : Nat) : ses = true → c.isOpen = true → c.pid = none → Prim E ses c { c with pid := some p, log := c.log ++ [.spawn p] }

/-- A sequence of elementary changes. -/
inductive Star (E : Env) (ses : Bool) (c : Ctl) : Ctl → Prop
  | refl : Star E ses c c
  | tail {a b : Ctl} : Star E ses c a → Prim E ses a b → Star E ses c b

theorem Star.calm {E : Env} {ses : Bool} {c a b : Ctl} (h : Star E ses c a) (g : Calm a b) : Star E ses c b := h.tail (.calm g)

/-- What all elementary changes keep is kept. -/
theorem Star.keep {E : Env} {ses : Bool} {P : Ctl → Prop} (hP : ∀ a b, Prim E ses a b → P a → P b) {c d : Ctl} (h : Star E ses c d) (hc : P c) : P d := by
  induction h with
  | refl => exact hc
  | tail _ g ih => exact hP _ _ g ih

/-! ### The functions make elementary changes -/

theorem setScan_calm {E : Env} {i : Nat} {v : Bool} {w w' : S} (h : setScan E i v w = some w') : Calm w.app w'.app := by
  unfold setScan at h
  simp only [Option.bind_eq_bind, Option.bind_eq_some_iff] at h
  obtain ⟨l, -, h⟩ := h
  split at h
  · injection h with h; subst h; exact .rfl' _
  · injection h with h; subst h
    have : Calm w.app (act (.scan l.id l.label v) w).app := ⟨rfl, rfl, rfl, rfl, rfl, rfl, [.scan l.id l.label v], rfl, by simp [plain]⟩
    split <;> exact this

theorem setWfd_calm {i : Nat} {v : List Byte} {w w' : S} (h : setWfd i v w = some w') : Calm w.app w'.app := by
  unfold setWfd at h
  simp only [Option.bind_eq_bind, Option.bind_eq_some_iff] at h
  obtain ⟨l, -, c, -, h⟩ := h
  split at h
  · injection h with h; subst h; exact .rfl' _
  · injection h with h; subst h
    exact ⟨rfl, rfl, rfl, rfl, rfl, rfl, [.wfd l.label v], rfl, by simp [plain]⟩

theorem setName_calm {i : Nat} {v : List Byte} {w w' : S} (h : setName i v w = some w') : Calm w.app w'.app := by
  unfold setName at h
  simp only [Option.bind_eq_bind, Option.bind_eq_some_iff] at h
  obtain ⟨l, -, c, -, h⟩ := h
  split at h
  · injection h with h; subst h; exact .rfl' _
  · injection h with h; subst h
    exact ⟨rfl, rfl, rfl, rfl, rfl, rfl, [.name l.label v], rfl, by simp [plain]⟩

theorem setManaged_calm {E : Env} {i : Nat} {v : Bool} {w w' : S} (h : setManaged E i v w = some w') : Calm w.app w'.app := by
  unfold setManaged at h
  simp only [Option.bind_eq_bind, Option.bind_eq_some_iff] at h
  obtain ⟨l, -, h⟩ := h
  split at h
  · injection h with h; subst h; exact .rfl' _
  · injection h with h; subst h
    have : Calm w.app (act (.managed l.label v) w).app := ⟨rfl, rfl, rfl, rfl, rfl, rfl, [.managed l.label v], rfl, by simp [plain]⟩
    split <;> exact this

theorem runOn_calm {E : Env} {i : Nat} {w w' : S} (h : runOn E i w = some w') : Calm w.app w'.app := by
  unfold runOn at h
  split at h
  · injection h with h; subst h; exact .rfl' _
  · simp only [Option.bind_eq_bind, Option.bind_eq_some_iff] at h
    obtain ⟨w1, h1, h2⟩ := h
    have a : Calm w.app ({ w with app := { w.app with runLink := some i } } : S).app := ⟨rfl, rfl, rfl, rfl, rfl, rfl, [], by simp, by simp⟩
    exact (a.trans (setWfd_calm h1)).trans (setScan_calm h2)

theorem sinkFn_fn {E : Env} {w w' : S} (h : sinkFn E w = some w') : Fn E w.app w'.app := by
  unfold sinkFn at h
  simp only at h
  split at h
  · injection h with h; subst h; exact .skip
  · rename_i i hi
    simp only [Option.bind_eq_bind, Option.bind_eq_some_iff] at h
    obtain ⟨p, hp, h⟩ := h
    split at h
    · injection h with h; subst h; exact .skip
    · split at h
      · cases h
      · split at h
        · injection h with h; subst h; exact .skip
        · rename_i ho
          have hr : w.app.runPeer ≠ none := by rw [hi]; simp
          have ho' : w.app.isOpen = false := by simpa using ho
          split at h
          · rename_i hk
            injection h with h; subst h
            exact .yes p.rem hr ho' hk
          · rename_i hk
            have hk' : (E.acc w.app.log.length && p.rem.isSome) = false := by simpa [steps] using hk
            split at h
            · rename_i ht
              injection h with h; subst h
              exact .giveUp p.rem hr ho' ht hk'
            · rename_i ht
              injection h with h; subst h
              exact .again p.rem hr ho' (by have : ¬ 3 ≤ w.app.time := ht; omega) hk'

theorem endSession_star {E : Env} {ses : Bool} {c : Ctl} {p : Peer} {w w' : S} (h : endSession E p w = some w') (hr : w.app.runPeer = some p.id) (hs : Star E ses c w.app) : Star E ses c w'.app := by
  unfold endSession at h
  simp only [Option.bind_eq_bind, Option.bind_eq_some_iff] at h
  obtain ⟨w1, h1, h2⟩ := h
  have hc := setScan_calm h2
  unfold closeSink at h1
  split at h1
  · cases h1
  · injection h1 with h1
    subst h1
    unfold killPlayer at hc
    simp only at hc
    cases hp : w.app.pid with
    | none =>
      rw [hp] at hc
      refine (hs.tail (.fin p.id hr hp)).calm (Calm.trans ?_ hc)
      exact ⟨rfl, hp.symm ▸ rfl, rfl, rfl, rfl, rfl, [], by simp [act], by simp⟩
    | some q =>
      rw [hp] at hc
      refine (hs.tail (.finKill p.id q hr hp)).calm (Calm.trans ?_ hc)
      exact ⟨rfl, rfl, rfl, rfl, rfl, rfl, [], by simp [act], by simp⟩

theorem calm_pend (c : Ctl) (x : Option Nat) (b : Bool) : Calm c { c with pending := x, scanT := b } := ⟨rfl, rfl, rfl, rfl, rfl, rfl, [], by simp, by simp⟩

theorem hooks_star (E : Env) (ses : Bool) (c : Ctl) : HoldsApp (hooks E) (Star E ses c) := by
  have idle : ∀ w w' : S, some w = some w' → Star E ses c w.app → Star E ses c w'.app := by
    intro w w' h hs; injection h with h; subst h; exact hs
  refine ⟨fun _ => idle, ?_, ?_, ?_, ?_, ?_, fun _ _ _ => idle, ?_, ?_⟩
  · intro p w w' h hs
    change onPeerFree E p w = some w' at h
    unfold onPeerFree at h
    split at h
    · injection h with h; subst h; exact hs
    · simp only [Option.bind_eq_bind, Option.bind_eq_some_iff] at h
      obtain ⟨w1, h1, h2⟩ := h
      have hs1 : Star E ses c w1.app := by
        unfold dropPending at h1
        split at h1
        · exact (hs.calm (calm_pend _ none false)).calm (setScan_calm h1)
        · injection h1 with h1; subst h1; exact hs
      split at h2
      · rename_i hr
        exact endSession_star h2 hr hs1
      · injection h2 with h2; subst h2; exact hs1
  · intro p w w' h hs
    change onConnected p w = some w' at h
    unfold onConnected at h
    split at h
    · injection h with h; subst h; exact hs
    · simp only at h
      split at h
      · injection h with h; subst h; exact hs.calm (calm_pend _ none w.app.scanT)
      · rename_i hr
        injection h with h; subst h
        refine ((hs.calm (calm_pend _ none w.app.scanT)).tail (.beg p.id hr)).calm ?_
        exact ⟨rfl, rfl, rfl, rfl, rfl, rfl, [], by simp [act], by simp⟩
  · intro p w w' h hs
    change onDisconnected E p w = some w' at h
    unfold onDisconnected at h
    split at h
    · injection h with h; subst h; exact hs
    · split at h
      · rename_i hr
        exact endSession_star h hr hs
      · injection h with h; subst h; exact hs
  · intro l w w' h hs
    change onLinkNew E w = some w' at h
    unfold onLinkNew at h
    split at h
    · split at h
      · exact hs.calm (runOn_calm h)
      · injection h with h; subst h; exact hs
    · injection h with h; subst h; exact hs
  · intro l w w' h hs
    change onLinkFree l w = some w' at h
    unfold onLinkFree at h
    split at h
    · injection h with h; subst h
      exact hs.calm ⟨rfl, rfl, rfl, rfl, rfl, rfl, [], by simp, by simp⟩
    · injection h with h; subst h; exact hs
  · intro p _ _ w w' h hs
    change onGoNeg p w = some w' at h
    unfold onGoNeg at h
    split at h
    · injection h with h; subst h; exact hs
    · split at h
      · injection h with h; subst h; exact hs
      · injection h with h; subst h
        exact hs.calm ⟨rfl, rfl, rfl, rfl, rfl, rfl, [.accept p.label (bytes "auto") []], rfl, by simp [plain]⟩
  · intro p _ w w' h hs
    change onFailure E p w = some w' at h
    unfold onFailure at h
    split at h
    · injection h with h; subst h; exact hs
    · split at h
      · injection h with h; subst h; exact hs
      · exact (hs.calm (calm_pend _ w.app.pending false)).calm (setScan_calm h)

theorem cmdRun_calm {E : Env} {n : List Byte} {w w' : S} (h : cmdRun E n w = some w') : Calm w.app w'.app := by
  unfold cmdRun at h
  split at h
  · simp only [Option.map_eq_some_iff] at h
    obtain ⟨-, -, rfl⟩ := h
    exact .rfl' _
  · split at h
    · injection h with h; subst h; exact .rfl' _
    · split at h
      · injection h with h; subst h; exact .rfl' _
      · exact runOn_calm h

theorem cmdBind_calm {E : Env} {n : List Byte} {w w' : S} (h : cmdBind E n w = some w') : Calm w.app w'.app := by
  unfold cmdBind at h
  have a : Calm w.app { w.app with bound := some n } := ⟨rfl, rfl, rfl, rfl, rfl, rfl, [], by simp, by simp⟩
  split at h
  · simp only [Option.map_eq_some_iff] at h
    obtain ⟨-, -, rfl⟩ := h
    exact .rfl' _
  · simp only at h
    split at h
    · injection h with h; subst h; exact a
    · split at h
      · injection h with h; subst h; exact a
      · exact a.trans (runOn_calm h)

theorem scanTimer_calm {E : Env} {w w' : S} (h : scanTimer E w = some w') : Calm w.app w'.app := by
  unfold scanTimer at h
  split at h
  · injection h with h; subst h; exact .rfl' _
  · simp only [Option.bind_eq_bind, Option.bind_eq_some_iff] at h
    obtain ⟨w1, h1, h2⟩ := h
    have hc : Calm w.app w1.app := by
      unfold expire at h1
      split at h1
      · injection h1 with h1; subst h1
        exact calm_pend w.app w.app.pending false
      · simp only at h1
        split at h1
        · simp only [Option.map_eq_some_iff] at h1
          obtain ⟨-, -, rfl⟩ := h1
          exact calm_pend w.app none false
        · injection h1 with h1; subst h1
          exact calm_pend w.app none false
    split at h2
    · injection h2 with h2; subst h2; exact hc
    · exact hc.trans (setScan_calm h2)

/-- Every event makes elementary changes. -/
theorem step_star {E : Env} {ses : Bool} {e : Ev} {w w' : S} {c : Ctl} (he : e.sink = true → ses = true) (h : step E w e = some w') (hs : Star E ses c w.app) : Star E ses c w'.app := by
  cases e with
  | msg m =>
    simp only [step, Option.map_eq_some_iff, Prod.exists] at h
    obtain ⟨r, w1, h1, rfl⟩ := h
    exact (hooks_star E ses c).receive h1 hs
  | run n => exact hs.calm (cmdRun_calm h)
  | bind n => exact hs.calm (cmdBind_calm h)
  | setManaged n v =>
    simp only [step, cmdManaged] at h
    split at h
    · injection h with h; subst h; exact hs
    · exact hs.calm (setManaged_calm h)
  | setName a =>
    simp only [step, cmdName] at h
    split at h
    · injection h with h; subst h; exact hs
    · split at h
      · injection h with h; subst h; exact hs
      · exact hs.calm (setName_calm h)
    · split at h
      · injection h with h; subst h; exact hs
      · exact hs.calm (setName_calm h)
  | scanTimer => exact hs.calm (scanTimer_calm h)
  | sinkTimer =>
    simp only [step] at h
    split at h
    · injection h with h; subst h; exact hs
    · rename_i ht
      exact hs.tail (.timer ht (sinkFn_fn h))
  | up =>
    simp only [step] at h
    split at h
    · injection h with h; subst h; exact hs
    · rename_i ho
      injection h with h; subst h
      exact hs.tail (.up (he rfl) (by simpa using ho))
  | down =>
    simp only [step] at h
    split at h
    · injection h with h; subst h; exact hs
    · rename_i ho
      have ho' : w.app.isOpen = true := by simpa using ho
      split at h
      · exact hs.tail (.down (he rfl) ho' (sinkFn_fn h))
      · injection h with h; subst h
        exact (hs.tail (.lost (he rfl) ho')).calm ⟨rfl, rfl, rfl, rfl, rfl, rfl, [], by simp, by simp⟩
  | resolution =>
    simp only [step] at h
    split at h
    · injection h with h; subst h; exact hs
    · rename_i ho
      simp only [Bool.or_eq_true, Bool.not_eq_true', not_or, Bool.not_eq_false, Bool.not_eq_true, Option.isSome_eq_false_iff, Option.isNone_iff_eq_none] at ho
      split at h
      · injection h with h; subst h; exact hs
      · rename_i n _
        injection h with h; subst h
        exact (hs.tail (.spawn (n + 1) (he rfl) ho.1.1 ho.2)).calm ⟨rfl, rfl, rfl, rfl, rfl, rfl, [], by simp [act], by simp⟩

theorem run_star {E : Env} {ses : Bool} (es : List Ev) {w w' : S} {c : Ctl} (he : ∀ e ∈ es, e.sink = true → ses = true) (h : run E w es = some w') (hs : Star E ses c w.app) : Star E ses c w'.app := by
  induction es generalizing w with
  | nil => rw [run] at h; injection h with h; subst h; exact hs
  | cons e es ih =>
    rw [run] at h
    simp only [Option.bind_eq_bind, Option.bind_eq_some_iff] at h
    obtain ⟨w1, h1, h2⟩ := h
    exact ih (fun e h => he e (List.mem_cons_of_mem _ h)) h2 (step_star (he e List.mem_cons_self) h1 hs)

theorem stopScans_calm {E : Env} (ls : List Link) {w w' : S} (h : stopScans E ls w = some w') : Calm w.app w'.app := by
  induction ls generalizing w with
  | nil => rw [stopScans] at h; injection h with h; subst h; exact .rfl' _
  | cons l ls ih =>
    rw [stopScans] at h
    simp only [Option.bind_eq_bind, Option.bind_eq_some_iff] at h
    obtain ⟨w1, h1, h2⟩ := h
    refine Calm.trans ?_ (ih h2)
    unfold stopScan at h1
    split at h1
    · exact setScan_calm h1
    · injection h1 with h1; subst h1; exact .rfl' _

/-! ### Sessions -/

theorem all_append (s : Sess) (a b : List Act) : s.all (a ++ b) = (s.all a).bind (·.all b) := by
  induction a generalizing s with
  | nil => rfl
  | cons x a ih =>
    rw [List.cons_append, Sess.all, Sess.all]
    cases s.step x with
    | none => rfl
    | some t => simp only [Option.bind_some]; exact ih t

theorem all_plain (s : Sess) (t : List Act) (h : ∀ a ∈ t, plain a = true) : s.all t = some s := by
  induction t with
  | nil => rfl
  | cons a t ih =>
    rw [Sess.all]
    have ha := h a (by simp)
    have : s.step a = some s := by cases a <;> first | rfl | (simp [plain] at ha)
    rw [this]
    exact ih fun x hx => h x (by simp [hx])

/-- The observer's knowledge agrees with the variables. -/
def Disc (c : Ctl) : Prop :=
  ∃ s : Sess, Sess.all {} c.log = some s ∧ s.peer = c.runPeer ∧ s.player = c.pid ∧ (c.isOpen = true → s.opened = true) ∧
    (s.player ≠ none → s.peer ≠ none) ∧ (s.opened = true → s.peer ≠ none) ∧ (c.sinkT ≠ none → s.peer ≠ none)

theorem fn_disc {E : Env} {c c' : Ctl} (h : Fn E c c') (hd : Disc c) : Disc c' := by
  obtain ⟨s, h1, h2, h3, h4, h5, h6, h7⟩ := hd
  have key : ∀ t, c.runPeer ≠ none → Sess.all {} (c.log ++ [.connect t]) = some { s with opened := true } := by
    intro t hr
    rw [all_append, h1]
    simp [Sess.all, Sess.step, h2, hr]
  cases h with
  | skip => exact ⟨s, h1, h2, h3, h4, h5, h6, by simp⟩
  | yes t hr ho hk => exact ⟨_, key t hr, h2, h3, fun _ => rfl, h5, fun _ => by simp [h2, hr], by simp⟩
  | giveUp t hr ho hk _ => exact ⟨_, key t hr, h2, h3, fun _ => rfl, h5, fun _ => by simp [h2, hr], by simp⟩
  | again t hr ho hk _ => exact ⟨_, key t hr, h2, h3, fun _ => rfl, h5, fun _ => by simp [h2, hr], fun _ => by simp [h2, hr]⟩

theorem prim_disc {E : Env} {ses : Bool} (c c' : Ctl) (h : Prim E ses c c') (hd : Disc c) : Disc c' := by
  cases h with
  | timer _ hf => exact fn_disc hf hd
  | up _ ho => exact hd
  | down _ ho hf =>
    refine fn_disc hf ?_
    obtain ⟨s, h1, h2, h3, h4, h5, h6, h7⟩ := hd
    exact ⟨s, h1, h2, h3, by simp, h5, h6, h7⟩
  | lost _ ho =>
    obtain ⟨s, h1, h2, h3, h4, h5, h6, h7⟩ := hd
    exact ⟨s, h1, h2, h3, by simp, h5, h6, h7⟩
  | calm hc =>
    obtain ⟨s, h1, h2, h3, h4, h5, h6, h7⟩ := hd
    obtain ⟨t, ht, ht'⟩ := hc.log
    refine ⟨s, ?_, h2.trans hc.runPeer.symm, h3.trans hc.pid.symm, by rw [hc.isOpen]; exact h4, h5, h6, by rw [hc.sinkT]; exact h7⟩
    rw [ht, all_append, h1]
    exact all_plain s t ht'
  | beg i hr =>
    obtain ⟨s, h1, h2, h3, h4, h5, h6, h7⟩ := hd
    refine ⟨{ s with peer := some i }, ?_, rfl, h3, h4, by simp, by simp, by simp⟩
    rw [all_append, h1]
    simp [Sess.all, Sess.step, h2, hr]
  | fin i hr hp =>
    obtain ⟨s, h1, h2, h3, h4, h5, h6, h7⟩ := hd
    refine ⟨{ peer := none, opened := false, player := none }, ?_, rfl, hp.symm, by simp, by simp, by simp, by simp⟩
    rw [all_append, h1]
    simp [Sess.all, Sess.step, h2, hr, h3, hp]
  | finKill i p hr hp =>
    obtain ⟨s, h1, h2, h3, h4, h5, h6, h7⟩ := hd
    refine ⟨{ peer := none, opened := false, player := none }, ?_, rfl, rfl, by simp, by simp, by simp, by simp⟩
    rw [all_append, h1]
    simp [Sess.all, Sess.step, h2, hr, h3, hp]
  | spawn p _ ho hp =>
    obtain ⟨s, h1, h2, h3, h4, h5, h6, h7⟩ := hd
    have := h6 (h4 ho)
    refine ⟨{ s with player := some p }, ?_, h2, rfl, h4, fun _ => this, h6, h7⟩
    rw [all_append, h1]
    simp [Sess.all, Sess.step, this, h4 ho, h3, hp]

theorem disc_start : Disc start.app := ⟨{}, rfl, rfl, rfl, by simp [start], by simp, by simp, by simp [start]⟩

/-! ### Attempts -/

theorem attempts_other (log t : List Act) (h : ∀ a ∈ t, isRunning a = false ∧ isConnect a = false) : attempts (log ++ t) = attempts log := by
  unfold attempts
  rw [List.reverse_append]
  have e : ∀ u : List Act, (∀ a ∈ u, isRunning a = false ∧ isConnect a = false) → ∀ r : List Act,
      (((u ++ r).takeWhile fun a => !isRunning a).filter isConnect).length = ((r.takeWhile fun a => !isRunning a).filter isConnect).length := by
    intro u
    induction u with
    | nil => intro _ r; rfl
    | cons a u ih =>
      intro hu r
      obtain ⟨ha, hb⟩ := hu a (by simp)
      rw [List.cons_append, List.takeWhile_cons_of_pos (by simp [ha]), List.filter_cons_of_neg (by simp [hb])]
      exact ih (fun x hx => hu x (by simp [hx])) r
  exact e t.reverse (fun a ha => h a (List.mem_reverse.mp ha)) _

theorem attempts_plain (log t : List Act) (h : ∀ a ∈ t, plain a = true) : attempts (log ++ t) = attempts log := by
  refine attempts_other log t fun a ha => ?_
  have := h a ha
  cases a <;> first | exact ⟨rfl, rfl⟩ | (simp [plain] at this)

theorem attempts_connect (log : List Act) (x : Option (List Byte)) : attempts (log ++ [.connect x]) = attempts log + 1 := by
  unfold attempts
  rw [List.reverse_append, List.reverse_singleton, List.singleton_append, List.takeWhile_cons_of_pos rfl, List.filter_cons_of_pos rfl]
  rfl

theorem attempts_running (log : List Act) (i : Nat) : attempts (log ++ [.running i]) = 0 := by
  unfold attempts
  rw [List.reverse_append]
  simp [isRunning]

/-- At most three attempts, if none succeeds. -/
def Att (c : Ctl) : Prop :=
  attempts c.log ≤ 3 ∧ c.isOpen = false ∧ ∀ t, c.sinkT = some t → t = attempts c.log + 1 ∧ c.time = t ∧ t ≤ 3

theorem prim_att {E : Env} {ses : Bool} (hE : ∀ n, E.acc n = false) (c c' : Ctl) (h : Prim E ses c c') (hd : Att c) : Att c' := by
  obtain ⟨h1, h2, h3⟩ := hd
  cases h with
  | calm hc =>
    obtain ⟨t, ht, ht'⟩ := hc.log
    have := attempts_plain c.log t ht'
    rw [← ht] at this
    exact ⟨by rw [this]; exact h1, by rw [hc.isOpen]; exact h2, by rw [hc.sinkT, hc.time, this]; exact h3⟩
  | beg i hr => exact ⟨by simp [attempts_running], h2, fun t ht => by injection ht with ht; subst ht; simp [attempts_running]⟩
  | fin i hr hp =>
    have := attempts_other c.log [.close, .stopped i] (by simp [isRunning, isConnect])
    exact ⟨by simp only [this]; exact h1, rfl, by simp⟩
  | finKill i p hr hp =>
    have := attempts_other c.log [.kill p, .close, .stopped i] (by simp [isRunning, isConnect])
    exact ⟨by simp only [this]; exact h1, rfl, by simp⟩
  | up _ ho => rw [h2] at ho; cases ho
  | down _ ho _ => rw [h2] at ho; cases ho
  | lost _ ho => rw [h2] at ho; cases ho
  | spawn p _ ho _ => rw [h2] at ho; cases ho
  | timer ht hf =>
    obtain ⟨t0, ht0⟩ := Option.ne_none_iff_exists'.mp ht
    obtain ⟨e1, e2, e3⟩ := h3 t0 ht0
    cases hf with
    | skip => exact ⟨h1, h2, by simp⟩
    | yes t hr ho hk => simp [hE] at hk
    | giveUp t hr ho hk _ => exact ⟨by simp only [attempts_connect]; omega, h2, by simp⟩
    | again t hr ho hk _ =>
      have hW : W32 = 4294967296 := rfl
      have e : (c.time + 1) % W32 = c.time + 1 := Nat.mod_eq_of_lt (by omega)
      exact ⟨by simp only [attempts_connect]; omega, h2, fun t ht => by injection ht with ht; rw [e] at ht; simp only [attempts_connect, e]; omega⟩

end Verif.Sinkctl
