import Verif.Proof.Show
import Verif.Props.Settings
import Verif.Model.Phone
/-! # Players, and the devices that cause them to be started -/
namespace Verif.Show
open Verif.C
open Verif.Sinkctl (Act Ctl Prim Star)
open Verif.Rtsp (Msg Moves)
open Verif.Settings (SSet)

theorem lowest_pos (t : List Wfd.Spec.Known) (ht : ∀ k ∈ t, k.2.1 ≠ 0 ∧ k.2.2 ≠ 0) {m x y : Nat} (h : Wfd.Spec.Lowest t m x y) : x ≠ 0 ∧ y ≠ 0 := by
  obtain ⟨i, h1, -⟩ := h
  exact ht (i, x, y) h1

theorem chosen_pos {c v h x y : Nat} (hc : Wfd.Spec.Chosen c v h x y) : x ≠ 0 ∧ y ≠ 0 := by
  rcases hc with hc | ⟨-, hc | ⟨-, hc⟩⟩
  · exact lowest_pos _ (by decide +kernel) hc
  · exact lowest_pos _ (by decide +kernel) hc
  · exact lowest_pos _ (by decide +kernel) hc

theorem argv_tells {st : SSet} (hst : Spec.HasPlayer st) (u : Bool) (t : List Byte) (p : Int) {x y : Nat} (hx : x ≠ 0) (hy : y ≠ 0) :
    ∃ argv, Settings.playerArgv st ⟨u, t, p, x, y⟩ = some argv ∧ Spec.Tells argv st.port t x y := by
  obtain ⟨n, hn⟩ : ∃ n, Settings.playerName st ⟨u, t, p, x, y⟩ = some n := by
    unfold Settings.playerName
    cases he : st.external with
    | false =>
      cases u
      · exact ⟨_, rfl⟩
      · exact ⟨_, rfl⟩
    | true =>
      rw [if_neg (by simp)]
      exact Option.ne_none_iff_exists'.mp (hst he)
  refine ⟨_, Settings.playerArgv_eq hn, n, _, _, rfl, ?_, ?_⟩
  · cases u
    · exact Or.inl rfl
    · exact Or.inr ⟨p, rfl⟩
  rw [Settings.playerTail_options]
  have hx' : ((x : Nat) : Int) ≠ 0 := by omega
  have hy' : ((y : Nat) : Int) ≠ 0 := by omega
  have bx : bytes "x" = [ch 'x'] := by decide
  have n1 : ch 'd' ≠ ch 'p' := by decide
  have n3 : ch 'd' ≠ ch 'r' := by decide
  have n5 : ch 'p' ≠ ch 's' := by decide
  have n6 : ch 'p' ≠ ch 'r' := by decide
  have n7 : ch 'p' ≠ ch 'a' := by decide
  have n8 : ch 's' ≠ ch 'r' := by decide
  have n10 : ch 'r' ≠ ch 'a' := by decide
  rw [bx]
  unfold Settings.Spec.value Settings.Spec.last
  cases st.gstDebug <;> cases st.scale <;> by_cases h7 : 7 ≤ st.cliSev <;> by_cases ha : st.audio = 0 <;>
    simp [h7, ha, hx, hy, n1, n3, n5, n6, n7, n8, n10, n1.symm, n3.symm, n5.symm, n6.symm, n7.symm, n8.symm, n10.symm]

/-! ### What is kept -/

/-- Without the sink no player is started. -/
theorem prim_pid {E : Sinkctl.Env} {c c' : Ctl} (h : Prim E false c c') (hc : c.pid = none) : c'.pid = none := by
  cases h with
  | calm g => rw [g.pid]; exact hc
  | beg _ _ => exact hc
  | fin _ _ _ => exact hc
  | finKill _ _ _ _ => rfl
  | timer _ hf => cases hf <;> exact hc
  | up h => cases h
  | down h => cases h
  | lost h => cases h
  | spawn _ h => cases h

theorem star_pid {E : Sinkctl.Env} {c c' : Ctl} (h : Star E false c c') (hc : c.pid = none) : c'.pid = none := h.keep (fun _ _ => prim_pid) hc

/-- Without the sink, a session that begins is not connected. -/
theorem prim_conn {E : Sinkctl.Env} {c c' : Ctl} (h : Prim E false c c') (hc : c.runPeer ≠ none → c.conn = false) : c'.runPeer ≠ none → c'.conn = false := by
  cases h with
  | calm g => rw [g.runPeer, g.conn]; exact hc
  | beg _ _ => intro _; rfl
  | fin _ _ _ => intro x; exact absurd rfl x
  | finKill _ _ _ _ => intro x; exact absurd rfl x
  | timer _ hf => cases hf <;> exact hc
  | up h => cases h
  | down h => cases h
  | lost h => cases h
  | spawn _ h => cases h

theorem run_append (st : SSet) (mv : Moves) (E : Sinkctl.Env) (a b : List Ev) (W : World) : run st mv E W (a ++ b) = (run st mv E W a).bind fun W => run st mv E W b := by
  induction a generalizing W with
  | nil => rfl
  | cons e a ih =>
    rw [List.cons_append, run, run]
    cases step st mv E W e with
    | none => rfl
    | some V => exact ih V

theorem reached_run {st : SSet} {ext : List (List Byte × List Byte)} {mv : Moves} {E : Sinkctl.Env} {W V : World} {es : List Ev} (h : Spec.Reached st ext mv E W) (hd : ∀ e ∈ es, Spec.Delivered e)
    (hr : run st mv E W es = some V) : Spec.Reached st ext mv E V := by
  obtain ⟨es0, h1, h2⟩ := h
  refine ⟨es0 ++ es, ?_, by rw [run_append, h2]; exact hr⟩
  intro e he
  rcases List.mem_append.mp he with he | he
  · exact h1 e he
  · exact hd e he

/-- The controller in it is one that can be reached. -/
theorem reached_disc {st : SSet} {ext : List (List Byte × List Byte)} {mv : Moves} {E : Sinkctl.Env} {W : World} (h : Spec.Reached st ext mv E W) : Sinkctl.Disc W.ctl.app := by
  obtain ⟨es, -, h2⟩ := h
  have adv : ∀ {V V' : World} {l : List Sinkctl.Ev}, advance st E V l = some V' → Sinkctl.Disc V.ctl.app → Sinkctl.Disc V'.ctl.app := by
    intro V V' l h hd
    unfold advance at h
    obtain ⟨w, h1, h2⟩ := Option.map_eq_some_iff.mp h
    rw [← h2]
    exact (Sinkctl.run_star (ses := true) l (fun _ _ _ => rfl) h1 .refl).keep Sinkctl.prim_disc hd
  have key : ∀ (es : List Ev) (V : World), Sinkctl.Disc V.ctl.app → run st mv E V es = some W → Sinkctl.Disc W.ctl.app := by
    intro es
    induction es with
    | nil => intro V hd h; cases h; exact hd
    | cons e es ih =>
      intro V hd h
      rw [run] at h
      obtain ⟨V1, h1, h2⟩ := Option.bind_eq_some_iff.mp h
      refine ih V1 ?_ h2
      cases e with
      | ctl e =>
        simp only [step] at h1
        split at h1
        · cases h1; exact hd
        · exact adv h1 hd
      | sink e =>
        simp only [step] at h1
        split at h1
        · cases h1; exact hd
        · obtain ⟨s, _, h1⟩ := Option.bind_eq_some_iff.mp h1
          exact adv h1 hd
  exact key es _ Sinkctl.disc_start h2

/-! ### The daemon's part -/

theorem ctl_run (st : SSet) (mv : Moves) (E : Sinkctl.Env) (es : List Sinkctl.Ev) (he : ∀ e ∈ es, e.sink = false) {w w' : Sinkctl.S} (h : Sinkctl.run E w es = some w') (k : Side) :
    ∃ k', run st mv E ⟨w, k⟩ (es.map .ctl) = some ⟨w', k'⟩ := by
  induction es generalizing w k with
  | nil => cases h; exact ⟨k, rfl⟩
  | cons e es ih =>
    rw [Sinkctl.run] at h
    simp only [Option.bind_eq_bind, Option.bind_eq_some_iff] at h
    obtain ⟨w1, h1, h2⟩ := h
    have h1' : Sinkctl.run E w [e] = some w1 := by rw [run_one]; exact h1
    have hs : step st mv E ⟨w, k⟩ (.ctl e) = some ⟨w1, follow st E w.app.log.length k (w1.app.log.drop w.app.log.length)⟩ := by
      simp only [step, he e (by simp), Bool.false_eq_true, if_false, advance, h1', Option.map_some]
    rw [List.map_cons, run, hs, Option.bind_some]
    exact ih (fun x hx => he x (by simp [hx])) h2 _

/-- What the daemon and the timer do to the controller are events of the program. -/
theorem phone_run (st : SSet) (mv : Moves) (jk : Nat → Byte) (env : Event.Env) (E : Sinkctl.Env) (evs : List Phone.Ev) {W W' : Phone.World} (h : Phone.run jk env E W evs = some W') (k : Side) :
    ∃ (ces : List Sinkctl.Ev) (k' : Side), (∀ e ∈ ces, e.sink = false) ∧ run st mv E ⟨W.w, k⟩ (ces.map .ctl) = some ⟨W'.w, k'⟩ := by
  induction evs generalizing W k with
  | nil => cases h; exact ⟨[], k, by simp, rfl⟩
  | cons e evs ih =>
    rw [Phone.run] at h
    obtain ⟨W1, h1, h2⟩ := Option.bind_eq_some_iff.mp h
    have ex : ∀ s1, Phone.exchange jk E W s1 = some W1 → ∃ l : List Sinkctl.Ev, (∀ e ∈ l, e.sink = false) ∧ Sinkctl.run E W.w l = some W1.w := by
      intro s1 hx
      unfold Phone.exchange at hx
      obtain ⟨w1, g1, hx⟩ := Option.bind_eq_some_iff.mp hx
      obtain ⟨s2, g2, hx⟩ := Option.bind_eq_some_iff.mp hx
      obtain ⟨ds, g3, hx⟩ := Option.map_eq_some_iff.mp hx
      refine ⟨_, ?_, by rw [g1, ← hx]⟩
      intro e he
      unfold Phone.told at he
      obtain ⟨m, -, rfl⟩ := List.mem_map.mp he
      rfl
    have one : ∃ l : List Sinkctl.Ev, (∀ e ∈ l, e.sink = false) ∧ Sinkctl.run E W.w l = some W1.w := by
      cases e with
      | line d =>
        simp only [Phone.step] at h1
        split at h1
        · cases h1
        · cases h1; exact ⟨[], by simp, rfl⟩
        · obtain ⟨s1, _, h1⟩ := Option.bind_eq_some_iff.mp h1
          exact ex s1 h1
      | helper g l =>
        simp only [Phone.step] at h1
        obtain ⟨s1, _, h1⟩ := Option.bind_eq_some_iff.mp h1
        exact ex s1 h1
      | helperGone g died =>
        simp only [Phone.step] at h1
        obtain ⟨s1, _, h1⟩ := Option.bind_eq_some_iff.mp h1
        exact ex s1 h1
      | timer =>
        simp only [Phone.step] at h1
        obtain ⟨w1, g1, g2⟩ := Option.map_eq_some_iff.mp h1
        refine ⟨[.sinkTimer], by simp [Sinkctl.Ev.sink], ?_⟩
        rw [run_one, g1, ← g2]
    obtain ⟨l, l1, l2⟩ := one
    obtain ⟨k1, r1⟩ := ctl_run st mv E l l1 l2 k
    obtain ⟨ces, k', c1, c2⟩ := ih h2 k1
    refine ⟨l ++ ces, k', ?_, by rw [List.map_append, run_append, r1]; exact c2⟩
    intro e he
    rcases List.mem_append.mp he with he | he
    · exact l1 e he
    · exact c1 e he

/-- The events of the controller alone start no player. -/
theorem ctl_pid (st : SSet) (mv : Moves) (E : Sinkctl.Env) (es : List Sinkctl.Ev) {W W' : World} (h : run st mv E W (es.map .ctl) = some W') (hc : W.ctl.app.pid = none) : W'.ctl.app.pid = none := by
  induction es generalizing W with
  | nil => cases h; exact hc
  | cons e es ih =>
    rw [List.map_cons, run] at h
    obtain ⟨W1, h1, h2⟩ := Option.bind_eq_some_iff.mp h
    refine ih h2 ?_
    simp only [step] at h1
    split at h1
    · cases h1; exact hc
    · rename_i he
      unfold advance at h1
      obtain ⟨w, g1, g2⟩ := Option.map_eq_some_iff.mp h1
      rw [← g2]
      exact star_pid (Sinkctl.run_star (ses := false) [e] (c := W.ctl.app) (by intro x hx hy; rw [List.mem_singleton.mp hx] at hy; exact absurd hy he) g1 .refl) hc

theorem ctl_players (st : SSet) (mv : Moves) (E : Sinkctl.Env) {cf : Sink.Cfg} (es : List Sinkctl.Ev) {W W' : World} (hk : K mv cf W.ctl.app W.side) (h : run st mv E W (es.map .ctl) = some W') :
    K mv cf W'.ctl.app W'.side ∧ W'.side.players = W.side.players := by
  induction es generalizing W with
  | nil => cases h; exact ⟨hk, rfl⟩
  | cons e es ih =>
    rw [List.map_cons, run] at h
    obtain ⟨W1, h1, h2⟩ := Option.bind_eq_some_iff.mp h
    obtain ⟨a, b⟩ := ctl_step hk h1
    obtain ⟨c, d⟩ := ih a h2
    exact ⟨c, d.trans b⟩

/-- … and is not connected. -/
theorem ctl_conn (st : SSet) (mv : Moves) (E : Sinkctl.Env) (es : List Sinkctl.Ev) {W W' : World} (h : run st mv E W (es.map .ctl) = some W') (hc : W.ctl.app.runPeer ≠ none → W.ctl.app.conn = false) :
    W'.ctl.app.runPeer ≠ none → W'.ctl.app.conn = false := by
  induction es generalizing W with
  | nil => cases h; exact hc
  | cons e es ih =>
    rw [List.map_cons, run] at h
    obtain ⟨W1, h1, h2⟩ := Option.bind_eq_some_iff.mp h
    refine ih h2 ?_
    simp only [step] at h1
    split at h1
    · cases h1; exact hc
    · rename_i he
      unfold advance at h1
      obtain ⟨w, g1, g2⟩ := Option.map_eq_some_iff.mp h1
      rw [← g2]
      exact (Sinkctl.run_star (ses := false) [e] (c := W.ctl.app) (by intro x hx hy; rw [List.mem_singleton.mp hx] at hy; exact absurd hy he) g1 .refl).keep (P := fun c => c.runPeer ≠ none → c.conn = false)
        (fun _ _ => prim_conn) hc

end Verif.Show
