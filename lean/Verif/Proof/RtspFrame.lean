import Mathlib.Data.List.Forall2
import Verif.Proof.RtspChunk
/-! Frames: byte strings that take an idle receiver to an idle receiver and deliver one message. Helper lemmas. -/
namespace Verif.Rtsp
open Verif.C

/-- Between two frames. Left over white space may still be in the ring. -/
structure Idle (b : Bus) : Prop where
  state : b.dec.state = .new
  m : b.dec.m = none
  sync : Sync b
  empty : b.dec.buflen = 0

theorem idle_open : Idle openBus := ⟨rfl, rfl, rfl, rfl⟩

/-- `raw` is a frame: it delivers one message, with property `P`. -/
def Frame (env : Env) (raw : List Byte) (P : Msg → Prop) : Prop :=
  ∀ b, Idle b → ∃ b' x, run env b raw = some (0, b') ∧ Idle b' ∧ b'.log = b.log ++ [x] ∧ P x

/-- The callbacks accept everything. -/
def Accepts (env : Env) : Prop := ∀ log m, 0 ≤ (env.H log m).1

theorem run_step {env : Env} {b b1 : Bus} {c : Byte} (t : List Byte) (h : feedChar env (b.ext [c]) c = some (0, b1)) :
    run env b (c :: t) = run env (b1.last c) t := by
  show (feedChar env (b.ext [c]) c).bind _ = _
  rw [h]; rfl

theorem run_trans {env : Env} {b b1 : Bus} {x : List Byte} (y : List Byte) (h : run env b x = some (0, b1)) :
    run env b (x ++ y) = run env b1 y := by
  rw [run_append, h]; rfl

/-- Frames one after the other deliver their messages in order. -/
theorem frames_run (env : Env) (fs : List (List Byte × (Msg → Prop))) (hf : ∀ f ∈ fs, Frame env f.1 f.2) :
    ∀ b, Idle b → ∃ b' xs, run env b (fs.map Prod.fst).flatten = some (0, b') ∧ Idle b' ∧ b'.log = b.log ++ xs ∧
      List.Forall₂ (fun x f => f.2 x) xs fs := by
  induction fs with
  | nil => intro b hb; exact ⟨b, [], rfl, hb, by simp, List.Forall₂.nil⟩
  | cons f t ih =>
    intro b hb
    obtain ⟨b1, x, r1, i1, l1, p1⟩ := hf f List.mem_cons_self b hb
    obtain ⟨b2, xs, r2, i2, l2, p2⟩ := ih (fun g hg => hf g (List.mem_cons_of_mem _ hg)) b1 i1
    refine ⟨b2, x :: xs, ?_, i2, ?_, List.Forall₂.cons p1 p2⟩
    · rw [List.map_cons, List.flatten_cons, run_trans _ r1]; exact r2
    · rw [l2, l1]; simp

/-- The same through any sequence of reads. -/
theorem frames_reads (env : Env) (ha : Accepts env) (fs : List (List Byte × (Msg → Prop))) (hf : ∀ f ∈ fs, Frame env f.1 f.2)
    (cs : List (List Byte)) (hc : cs.flatten = (fs.map Prod.fst).flatten) (b : Bus) (hb : Idle b) :
    ∃ b' xs, reads env b cs = some (0, b') ∧ Idle b' ∧ b'.log = b.log ++ xs ∧ List.Forall₂ (fun x f => f.2 x) xs fs := by
  obtain ⟨b', xs, hr, hi, hl, hp⟩ := frames_run env fs hf b hb
  refine ⟨b', xs, ?_, hi, hl, hp⟩
  have hA : ∀ log m, (env.H log m).1 ≠ -EAGAIN := by
    intro log m h
    have := ha log m
    rw [h] at this
    exact absurd this (by decide)
  have := reads_run env hA cs b hb.sync
  rw [hc, hr] at this
  cases hx : reads env b cs with
  | none => rw [hx] at this; exact absurd this (by simp)
  | some x =>
    rw [hx] at this
    simp only [Option.map_some, Option.some.injEq] at this
    rw [outcome_eq this (Int.le_refl 0)]

theorem idle_new (env : Env) (b : Bus) (hb : Idle b) (c : Byte) :
    feedChar env (b.ext [c]) c = some (0, (b.ext [c]).put (feedNew (b.ext [c]).dec c)) := by
  unfold feedChar
  rw [show (b.ext [c]).dec.state = b.dec.state from rfl, hb.state]

/-! ### Data frames -/

theorem seal_data (mv : Moves) (cookies : Nat) (m : Msg) (ht : m.type = .data) (hs : m.isSealed = false) (hb : m.iterBody = false)
    (hi : m.iterHeader = none) :
    ∃ ck k, sealMsg mv cookies m = some (0, ck, { serializeData { m with cookie := k } with isSealed := true }) := by
  unfold sealMsg
  rw [if_neg (by rw [hs]; decide), if_neg (by rw [hb, hi]; decide)]
  simp only
  rw [if_pos ht, if_neg (show ¬ m.type = .reply by rw [ht]; decide)]
  exact ⟨_, _, rfl⟩

/-- In the middle of the payload of a data frame. -/
structure InData (b : Bus) (chan n : Nat) (done : List Byte) : Prop where
  state : b.dec.state = .dataBody
  m : b.dec.m = none
  ring : b.dec.ring = done
  buflen : b.dec.buflen = done.length
  size : b.dec.dataSize = n
  chan : b.dec.dataChannel = chan

theorem data_head (env : Env) (b : Bus) (hb : Idle b) (x y z : Byte) :
    ∃ b', run env b [ch '$', x, y, z] = some (0, b') ∧ b'.log = b.log ∧ InData b' x.toNat (y.toNat * 256 + z.toNat) [] := by
  have hlen : b.dec.buflen = b.dec.ring.length := hb.sync
  have h0 : feedChar env (b.ext [ch '$']) (ch '$') = some (0, (b.ext [ch '$']).put
      { b.dec with state := .dataHead, dataChannel := 0, dataSize := 0, ring := [], buflen := 0 }) := by
    rw [idle_new env b hb]
    unfold feedNew
    rw [if_neg (by decide), if_pos rfl]
    have : (b.ext [ch '$']).dec.ring.drop ((b.ext [ch '$']).dec.buflen + 1) = [] := by
      rw [List.drop_eq_nil_iff]
      show (b.dec.ring ++ [ch '$']).length ≤ b.dec.buflen + 1
      rw [List.length_append, hlen]; simp
    unfold pull Parser.goto
    simp only [this]
    rfl
  rw [run_step _ h0]
  refine ⟨_, rfl, rfl, ?_⟩
  exact ⟨rfl, hb.m, rfl, rfl, rfl, rfl⟩

theorem data_body (env : Env) (ha : Accepts env) (chan : Nat) (hch : chan < 256) (n : Nat) (rest : List Byte) : rest ≠ [] → ∀ (b : Bus) (done : List Byte),
    InData b chan n done → done.length + rest.length = n →
    ∃ b' x, run env b rest = some (0, b') ∧ Idle b' ∧ b'.dec.ring = [] ∧ b'.log = b.log ++ [x] ∧
      x.type = .data ∧ x.channel = chan ∧ x.payload = done ++ rest ∧ x.isSealed = true ∧ x.isUsed = true ∧
      x.raw = (serializeData { newMsg with type := .data, channel := chan, payload := done ++ rest }).raw := by
  induction rest with
  | nil => intro h; exact absurd rfl h
  | cons c t ih =>
    intro _ b done hb hn
    have hfeed : feedChar env (b.ext [c]) c = feedDataBody env (b.ext [c]) := by
      unfold feedChar
      rw [show (b.ext [c]).dec.state = b.dec.state from rfl, hb.state]
    have hr : (b.ext [c]).dec.inc.ring = done ++ [c] := by show b.dec.ring ++ [c] = _; rw [hb.ring]
    have hl : (b.ext [c]).dec.inc.buflen = done.length + 1 := by show b.dec.buflen + 1 = _; rw [hb.buflen]
    have hs : (b.ext [c]).dec.inc.dataSize = n := hb.size
    have hc : (b.ext [c]).dec.inc.dataChannel = chan := hb.chan
    by_cases ht : t = []
    · subst ht
      have hn' : n = done.length + 1 := by simpa using hn.symm
      have hnd : newData chan (done ++ [c]) = some { newMsg with type := .data, channel := chan, payload := done ++ [c] } := by
        unfold newData
        rw [if_neg (by have : W32 = 4294967296 := rfl; omega)]
      have hco : copyOut (b.ext [c]).dec.inc (b.ext [c]).dec.inc.dataSize = some (done ++ [c]) := by
        unfold copyOut
        rw [hs, hr, hn', if_pos (by simp), List.take_of_length_le (by simp)]
      have key : ∃ b1 x, feedDataBody env (b.ext [c]) = some (0, b1) ∧ Idle b1 ∧ b1.dec.ring = [] ∧ b1.log = b.log ++ [x] ∧
          x.type = .data ∧ x.channel = chan ∧ x.payload = done ++ [c] ∧ x.isSealed = true ∧ x.isUsed = true ∧
          x.raw = (serializeData { newMsg with type := .data, channel := chan, payload := done ++ [c] }).raw := by
        unfold feedDataBody
        simp only
        rw [if_pos (by omega), hco]
        simp only [Option.bind_eq_bind, Option.bind_some]
        unfold submitData
        rw [show ((b.ext [c]).put (b.ext [c]).dec.inc).dec.dataChannel = chan from hc, hnd]
        simp only [Option.bind_eq_bind]
        obtain ⟨ck, k, hseal⟩ := seal_data env.mv ((b.ext [c]).put (b.ext [c]).dec.inc).cookies
          { newMsg with type := .data, channel := chan, payload := done ++ [c] } rfl rfl rfl rfl
        rw [hseal]
        simp only [Option.bind_some]
        rw [if_neg (Int.lt_irrefl 0)]
        unfold incoming
        simp only
        rw [if_neg (by have := ha; simp only [Accepts] at this; have := this b.log; exact Int.not_lt.mpr (this _))]
        simp only [Option.bind_some]
        refine ⟨_, _, rfl, ?_, ?_, rfl, rfl, rfl, rfl, rfl, rfl, rfl⟩
        · refine ⟨rfl, hb.m, ?_, rfl⟩
          show 0 = (List.drop (b.ext [c]).dec.inc.buflen (b.ext [c]).dec.inc.ring).length
          rw [hl, hr]; simp
        · show List.drop (b.ext [c]).dec.inc.buflen (b.ext [c]).dec.inc.ring = []
          rw [hl, hr]; simp
      obtain ⟨b1, x, e1, i1, r1, l1, hx⟩ := key
      rw [← hfeed] at e1
      refine ⟨b1.last c, x, ?_, ⟨i1.state, i1.m, i1.sync, i1.empty⟩, r1, l1, hx⟩
      rw [run_step [] e1]; rfl
    · have hlt : ¬ (b.ext [c]).dec.inc.dataSize ≤ (b.ext [c]).dec.inc.buflen := by
        rw [hs, hl]
        have : 0 < t.length := List.length_pos_iff.mpr ht
        simp at hn; omega
      have e1 : feedChar env (b.ext [c]) c = some (0, (b.ext [c]).put (b.ext [c]).dec.inc) := by
        rw [hfeed]
        unfold feedDataBody
        simp only
        rw [if_neg hlt]
      rw [run_step t e1]
      obtain ⟨b', x, h1, h2, h3, h4, h5⟩ := ih ht (((b.ext [c]).put (b.ext [c]).dec.inc).last c) (done ++ [c])
        ⟨hb.state, hb.m, hr, by show (b.ext [c]).dec.inc.buflen = _; rw [hl]; simp, hs, hc⟩ (by simp at hn ⊢; omega)
      rw [show done ++ [c] ++ t = done ++ c :: t from by simp] at h5
      exact ⟨b', x, h1, h2, h3, h4, h5⟩

/-- What is delivered for a data frame. -/
def IsData (chan : Nat) (p raw : List Byte) (x : Msg) : Prop :=
  x.type = .data ∧ x.channel = chan ∧ x.payload = p ∧ x.isSealed = true ∧ x.isUsed = true ∧ x.raw = some raw

theorem data_frame (env : Env) (ha : Accepts env) (chan : Nat) (p : List Byte) (hch : chan < 256) (hp : p ≠ []) (hlen : p.length < 65536) :
    Frame env ([ch '$', chan.toUInt8, (p.length / 256).toUInt8, p.length.toUInt8] ++ p)
      (IsData chan p ([ch '$', chan.toUInt8, (p.length / 256).toUInt8, p.length.toUInt8] ++ p)) := by
  intro b hb
  obtain ⟨b1, r1, l1, i1⟩ := data_head env b hb chan.toUInt8 (p.length / 256).toUInt8 p.length.toUInt8
  have hx : chan.toUInt8.toNat = chan := by simp; omega
  have hy : (p.length / 256).toUInt8.toNat * 256 + p.length.toUInt8.toNat = p.length := by simp; omega
  rw [hx, hy] at i1
  obtain ⟨b2, x, r2, i2, _, l2, h1, h2, h3, h4, h5, h6⟩ := data_body env ha chan hch p.length p hp b1 [] i1 (by simp)
  exact ⟨b2, x, by rw [run_trans _ r1]; exact r2, i2, by rw [l2, l1], h1, h2, h3, h4, h5, by rw [h6]; rfl⟩

end Verif.Rtsp
