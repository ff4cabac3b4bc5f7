import Verif.Model.RtspParse
/-! Chunk independence of the RTSP parser: helper lemmas. -/
namespace Verif.Rtsp
open Verif.C

/-- The parser with bytes not looked at yet behind its buffer. -/
def Parser.ext (d : Parser) (rest : List Byte) : Parser := { d with ring := d.ring ++ rest }
/-- The same for the bus. -/
def Bus.ext (b : Bus) (rest : List Byte) : Bus := { b with dec := b.dec.ext rest }

/-- Lift to results. -/
def extR (rest : List Byte) (r : Int × Bus) : Int × Bus := (r.1, r.2.ext rest)
def extP (rest : List Byte) (r : Int × Parser) : Int × Parser := (r.1, r.2.ext rest)

theorem copyOut_ext (d : Parser) (n : Nat) (rest : List Byte) (h : n ≤ d.ring.length) :
    copyOut (d.ext rest) n = copyOut d n := by
  unfold copyOut Parser.ext
  simp only [List.length_append]
  rw [if_pos (by omega), if_pos h, List.take_append_of_le_length h]

theorem pull_ext (d : Parser) (n l : Nat) (rest : List Byte) (h : n ≤ d.ring.length) :
    pull (d.ext rest) n l = (pull d n l).ext rest := by
  unfold pull Parser.ext
  simp only [List.drop_append_of_le_length h]

theorem parserAppendHeader_ext (env : Env) (d : Parser) (m : Msg) (line rest : List Byte) :
    parserAppendHeader env (d.ext rest) m line = (parserAppendHeader env d m line).map (extP rest) := by
  unfold parserAppendHeader
  simp only
  split
  · rfl
  · cases (appendHeaderLine env.mv m line).2.headers.getLast? with
    | none => rfl
    | some h =>
      simp only [Option.bind_eq_bind, Option.bind_some]
      split
      · cases h.tokens with
        | nil => rfl
        | cons t ts =>
          simp only
          split <;> rfl
      · split
        · cases h.tokens with
          | nil => rfl
          | cons t ts => rfl
        · rfl

theorem parserAppendHeader_ring (env : Env) (d : Parser) (m : Msg) (line : List Byte) (r : Int × Parser)
    (h : parserAppendHeader env d m line = some r) :
    r.2.ring = d.ring ∧ r.2.buflen = d.buflen ∧ r.2.state = d.state ∧ r.2.lastChr = d.lastChr ∧ r.2.quoted = d.quoted := by
  unfold parserAppendHeader at h
  simp only at h
  split at h
  · cases h; exact ⟨rfl, rfl, rfl, rfl, rfl⟩
  · cases hh : (appendHeaderLine env.mv m line).2.headers.getLast? with
    | none => rw [hh] at h; cases h
    | some x =>
      rw [hh] at h
      simp only [Option.bind_eq_bind, Option.bind_some] at h
      split at h
      · cases ht : x.tokens with
        | nil => rw [ht] at h; cases h; exact ⟨rfl, rfl, rfl, rfl, rfl⟩
        | cons t ts =>
          rw [ht] at h
          simp only at h
          split at h <;> cases h <;> exact ⟨rfl, rfl, rfl, rfl, rfl⟩
      · split at h
        · cases ht : x.tokens with
          | nil => rw [ht] at h; cases h; exact ⟨rfl, rfl, rfl, rfl, rfl⟩
          | cons t ts => rw [ht] at h; cases h; exact ⟨rfl, rfl, rfl, rfl, rfl⟩
        · cases h; exact ⟨rfl, rfl, rfl, rfl, rfl⟩

theorem finish_ext (env : Env) (d : Parser) (rest : List Byte) (hb : d.buflen ≤ d.ring.length) :
    finishHeaderLine env (d.ext rest) = (finishHeaderLine env d).map (extP rest) := by
  unfold finishHeaderLine
  rw [show (d.ext rest).buflen = d.buflen from rfl, copyOut_ext d _ rest hb]
  cases copyOut d d.buflen with
  | none => rfl
  | some raw =>
    simp only [Option.bind_eq_bind, Option.bind_some]
    rw [show (d.ext rest).m = d.m from rfl]
    cases d.m with
    | none =>
      simp only
      cases fromHead (Sanitize.Spec.text raw) <;> rfl
    | some m => exact parserAppendHeader_ext _ _ _ _ _

theorem finish_ring (env : Env) (d : Parser) (r : Int × Parser) (h : finishHeaderLine env d = some r) :
    r.2.ring = d.ring ∧ r.2.buflen = d.buflen ∧ r.2.state = d.state ∧ r.2.lastChr = d.lastChr ∧ r.2.quoted = d.quoted := by
  unfold finishHeaderLine at h
  cases hc : copyOut d d.buflen with
  | none => rw [hc] at h; cases h
  | some raw =>
    rw [hc] at h
    simp only [Option.bind_eq_bind, Option.bind_some] at h
    cases hm : d.m with
    | none =>
      rw [hm] at h
      simp only at h
      cases hf : fromHead (Sanitize.Spec.text raw) with
      | none => rw [hf] at h; cases h; exact ⟨rfl, rfl, rfl, rfl, rfl⟩
      | some m => rw [hf] at h; cases h; exact ⟨rfl, rfl, rfl, rfl, rfl⟩
    | some m => rw [hm] at h; exact parserAppendHeader_ring _ _ _ _ _ h

theorem incoming_ext (env : Env) (b : Bus) (m : Msg) (rest : List Byte) :
    incoming env (b.ext rest) m = extR rest (incoming env b m) := rfl

theorem submit_ext (env : Env) (b : Bus) (rest : List Byte) :
    submit env (b.ext rest) = (submit env b).map (extR rest) := by
  unfold submit
  rw [show (b.ext rest).dec.m = b.dec.m from rfl]
  cases b.dec.m with
  | none => rfl
  | some m =>
    simp only [Option.bind_eq_bind]
    rw [show (b.ext rest).cookies = b.cookies from rfl]
    cases sealMsg env.mv b.cookies m with
    | none => rfl
    | some r =>
      simp only [Option.bind_some]
      split <;> rfl

theorem submit_ring (env : Env) (b : Bus) (r : Int × Bus) (h : submit env b = some r) :
    r.2.dec.ring = b.dec.ring ∧ r.2.dec.buflen = b.dec.buflen := by
  unfold submit at h
  cases hm : b.dec.m with
  | none => rw [hm] at h; cases h; exact ⟨rfl, rfl⟩
  | some m =>
    rw [hm] at h
    simp only [Option.bind_eq_bind] at h
    cases hs : sealMsg env.mv b.cookies m with
    | none => rw [hs] at h; cases h
    | some s =>
      rw [hs] at h
      simp only [Option.bind_some] at h
      split at h <;> cases h <;> exact ⟨rfl, rfl⟩

theorem submitData_ext (env : Env) (b : Bus) (p rest : List Byte) :
    submitData env (b.ext rest) p = (submitData env b p).map (extR rest) := by
  unfold submitData
  rw [show (b.ext rest).dec.dataChannel = b.dec.dataChannel from rfl]
  cases newData b.dec.dataChannel p with
  | none => rfl
  | some m =>
    simp only [Option.bind_eq_bind]
    rw [show (b.ext rest).cookies = b.cookies from rfl]
    cases sealMsg env.mv b.cookies m with
    | none => rfl
    | some r =>
      simp only [Option.bind_some]
      split <;> rfl

theorem submitData_ring (env : Env) (b : Bus) (p : List Byte) (r : Int × Bus) (h : submitData env b p = some r) :
    r.2.dec.ring = b.dec.ring ∧ r.2.dec.buflen = b.dec.buflen := by
  unfold submitData at h
  cases hm : newData b.dec.dataChannel p with
  | none => rw [hm] at h; cases h; exact ⟨rfl, rfl⟩
  | some m =>
    rw [hm] at h
    simp only [Option.bind_eq_bind] at h
    cases hs : sealMsg env.mv b.cookies m with
    | none => rw [hs] at h; cases h
    | some s =>
      rw [hs] at h
      simp only [Option.bind_some] at h
      split at h <;> cases h <;> exact ⟨rfl, rfl⟩

/-! ### One character -/

/-- What holds of one step of the machine: `b` is the state before, `f` gives the state behind bytes not looked at. -/
def StepOk (f : List Byte → Option (Int × Bus)) : Prop :=
  (∀ rest, f rest = (f []).map (extR rest)) ∧
  ∀ r, f [] = some r → 0 ≤ r.1 → r.2.dec.buflen = r.2.dec.ring.length

theorem ext_nil (d : Parser) : d.ext [] = d := by unfold Parser.ext; simp
theorem bext_nil (b : Bus) : b.ext [] = b := by unfold Bus.ext; rw [ext_nil]

theorem feedNew_ext (d : Parser) (c : Byte) (rest : List Byte) (h : d.buflen + 1 = d.ring.length) :
    feedNew (d.ext rest) c = (feedNew d c).ext rest ∧ (feedNew d c).buflen = (feedNew d c).ring.length := by
  unfold feedNew
  split
  · exact ⟨rfl, h⟩
  · split
    · refine ⟨pull_ext { d.goto .dataHead with dataChannel := 0, dataSize := 0 } _ _ _ (Nat.le_of_eq h), ?_⟩
      show 0 = (d.ring.drop _).length
      rw [List.length_drop]; omega
    · refine ⟨pull_ext { d.goto .header with remaining := 0 } d.buflen _ _ (by show d.buflen ≤ d.ring.length; omega), ?_⟩
      show 1 = (d.ring.drop _).length
      rw [List.length_drop]; omega

theorem headerEnd_ext (env : Env) (b : Bus) (d : Parser) (s0 s1 : PState) (rest : List Byte) (h : d.buflen + 1 = d.ring.length) :
    headerEnd env (b.ext rest) (d.ext rest) s0 s1 = (headerEnd env b d s0 s1).map (extR rest) := by
  unfold headerEnd
  rw [finish_ext _ _ _ (by omega)]
  cases hf : finishHeaderLine env d with
  | none => rfl
  | some r =>
    have hr := finish_ring _ _ _ hf
    simp only [Option.map_some, Option.bind_eq_bind, Option.bind_some]
    rw [show (extP rest r).1 = r.1 from rfl, show (extP rest r).2 = r.2.ext rest from rfl]
    split
    · rfl
    · rw [show (r.2.ext rest).buflen = r.2.buflen from rfl, pull_ext _ _ _ _ (by rw [hr.1, hr.2.1]; exact Nat.le_of_eq h)]
      rw [show ((pull r.2 (r.2.buflen + 1) 0).ext rest).remaining = (pull r.2 (r.2.buflen + 1) 0).remaining from rfl]
      split
      · exact submit_ext env (b.put ((pull r.2 (r.2.buflen + 1) 0).goto s0)) rest
      · rfl

theorem headerEnd_len (env : Env) (b : Bus) (d : Parser) (s0 s1 : PState) (h : d.buflen + 1 = d.ring.length)
    (r : Int × Bus) (hr : headerEnd env b d s0 s1 = some r) (h0 : 0 ≤ r.1) : r.2.dec.buflen = r.2.dec.ring.length := by
  unfold headerEnd at hr
  cases hf : finishHeaderLine env d with
  | none => rw [hf] at hr; cases hr
  | some x =>
    rw [hf] at hr
    have hx := finish_ring _ _ _ hf
    simp only [Option.bind_eq_bind, Option.bind_some] at hr
    split at hr
    · rename_i hneg; cases hr; exact absurd h0 (Int.not_le.mpr hneg)
    · have hp : (pull x.2 (x.2.buflen + 1) 0).ring.length = 0 := by
        show (x.2.ring.drop _).length = 0
        rw [List.length_drop, hx.1, hx.2.1]; omega
      split at hr
      · have := submit_ring _ _ _ hr
        rw [this.1, this.2]; exact hp.symm
      · cases hr; exact hp.symm

theorem headerChar_ext (d : Parser) (c : Byte) (rest : List Byte) : headerChar (d.ext rest) c = (headerChar d c).ext rest := by
  unfold headerChar; split <;> rfl

theorem headerChar_len (d : Parser) (c : Byte) : (headerChar d c).buflen = d.buflen + 1 ∧ (headerChar d c).ring = d.ring := by
  unfold headerChar; split <;> exact ⟨rfl, rfl⟩

theorem feedHeader_ok (env : Env) (b : Bus) (c : Byte) (h : b.dec.buflen + 1 = b.dec.ring.length) :
    StepOk (fun rest => feedHeader env (b.ext rest) c) := by
  constructor
  · intro rest
    simp only [bext_nil]
    unfold feedHeader
    simp only
    rw [show (b.ext rest).dec.lastChr = b.dec.lastChr from rfl]
    split
    · split
      · exact headerEnd_ext env b (b.dec.goto .headerNl) _ _ rest h
      · rfl
    · split
      · split
        · exact headerEnd_ext env b b.dec _ _ rest h
        · rfl
      · split
        · rfl
        · split
          · rw [show (b.ext rest).dec = b.dec.ext rest from rfl, finish_ext _ _ _ (by omega)]
            cases hf : finishHeaderLine env b.dec with
            | none => rfl
            | some r =>
              have hr := finish_ring _ _ _ hf
              simp only [Option.map_some, Option.bind_eq_bind, Option.bind_some]
              rw [show (extP rest r).1 = r.1 from rfl, show (extP rest r).2 = r.2.ext rest from rfl]
              split
              · rfl
              · rw [show (r.2.ext rest).buflen = r.2.buflen from rfl, pull_ext _ _ _ _ (by rw [hr.1, hr.2.1]; omega), headerChar_ext]
                rfl
          · rw [show (b.ext rest).dec = b.dec.ext rest from rfl, headerChar_ext]; rfl
  · intro r hr h0
    simp only [bext_nil] at hr
    unfold feedHeader at hr
    simp only at hr
    split at hr
    · split at hr
      · exact headerEnd_len env b (b.dec.goto .headerNl) _ _ h r hr h0
      · cases hr; exact h
    · split at hr
      · split at hr
        · exact headerEnd_len env b b.dec _ _ h r hr h0
        · cases hr; exact h
      · split at hr
        · cases hr; exact h
        · split at hr
          · cases hf : finishHeaderLine env b.dec with
            | none => rw [hf] at hr; cases hr
            | some x =>
              rw [hf] at hr
              have hx := finish_ring _ _ _ hf
              simp only [Option.bind_eq_bind, Option.bind_some] at hr
              split at hr
              · rename_i hneg; cases hr; exact absurd h0 (Int.not_le.mpr hneg)
              · cases hr
                show (headerChar (pull x.2 x.2.buflen 0) c).buflen = (headerChar (pull x.2 x.2.buflen 0) c).ring.length
                rw [(headerChar_len _ _).1, (headerChar_len _ _).2]
                show 0 + 1 = (x.2.ring.drop x.2.buflen).length
                rw [List.length_drop, hx.1, hx.2.1]; omega
          · cases hr
            show (headerChar b.dec c).buflen = (headerChar b.dec c).ring.length
            rw [(headerChar_len _ _).1, (headerChar_len _ _).2]; exact h

theorem feedQuote_ext (d : Parser) (c : Byte) (rest : List Byte) (h : d.buflen + 1 = d.ring.length) :
    feedQuote (d.ext rest) c = (feedQuote d c).ext rest ∧ (feedQuote d c).buflen = (feedQuote d c).ring.length := by
  unfold feedQuote
  rw [show (d.ext rest).lastChr = d.lastChr from rfl, show (d.ext rest).quoted = d.quoted from rfl]
  split
  · exact ⟨rfl, h⟩
  · split <;> exact ⟨rfl, h⟩

theorem bodyDone_ext (env : Env) (b : Bus) (rest : List Byte) (h : b.dec.buflen ≤ b.dec.ring.length) :
    bodyDone env (b.ext rest) = (bodyDone env b).map (extR rest) := by
  unfold bodyDone
  rw [show (b.ext rest).dec = b.dec.ext rest from rfl, show (b.dec.ext rest).m = b.dec.m from rfl]
  cases b.dec.m with
  | none => rfl
  | some m =>
    simp only
    rw [show (b.dec.ext rest).buflen = b.dec.buflen from rfl, copyOut_ext _ _ _ h]
    cases copyOut b.dec b.dec.buflen with
    | none => rfl
    | some raw =>
      simp only [Option.bind_eq_bind, Option.bind_some]
      cases appendBody env.mv m raw with
      | none => rfl
      | some a =>
        simp only [Option.bind_some]
        split
        · exact submit_ext env (b.put (b.dec.setM (some a.2))) rest
        · rfl

theorem bodyDone_ring (env : Env) (b : Bus) (r : Int × Bus) (h : bodyDone env b = some r) :
    r.2.dec.ring = b.dec.ring ∧ r.2.dec.buflen = b.dec.buflen := by
  unfold bodyDone at h
  cases hm : b.dec.m with
  | none => rw [hm] at h; cases h; exact ⟨rfl, rfl⟩
  | some m =>
    rw [hm] at h
    simp only at h
    cases hc : copyOut b.dec b.dec.buflen with
    | none => rw [hc] at h; cases h
    | some raw =>
      rw [hc] at h
      simp only [Option.bind_eq_bind, Option.bind_some] at h
      cases ha : appendBody env.mv m raw with
      | none => rw [ha] at h; cases h
      | some a =>
        rw [ha] at h
        simp only [Option.bind_some] at h
        split at h
        · have := submit_ring _ _ _ h
          exact this
        · cases h; exact ⟨rfl, rfl⟩

theorem reset_ext (r : Int × Bus) (rest : List Byte) (h : r.2.dec.buflen ≤ r.2.dec.ring.length) :
    reset (extR rest r) = extR rest (reset r) := by
  unfold reset
  have := pull_ext (r.2.dec.goto .new) r.2.dec.buflen 0 rest h
  show (_, Bus.put (r.2.ext rest) (pull ((r.2.dec.goto .new).ext rest) r.2.dec.buflen 0)) = _
  rw [this]
  rfl

theorem reset_len (r : Int × Bus) (h : r.2.dec.buflen = r.2.dec.ring.length) :
    (reset r).2.dec.buflen = (reset r).2.dec.ring.length := by
  unfold reset
  show 0 = (r.2.dec.ring.drop r.2.dec.buflen).length
  rw [List.length_drop, h]; omega

theorem feedBody_ok (env : Env) (b : Bus) (c : Byte) (h : b.dec.buflen + 1 = b.dec.ring.length) :
    StepOk (fun rest => feedBody env (b.ext rest) c) := by
  constructor
  · intro rest
    simp only [bext_nil]
    unfold feedBody
    rw [show (b.ext rest).dec.remaining = b.dec.remaining from rfl]
    split
    · rw [show (b.ext rest).dec.goto .new = (b.dec.goto .new).ext rest from rfl, (feedNew_ext (b.dec.goto .new) c rest h).1]
      rfl
    · simp only
      split
      · rfl
      · have hb := bodyDone_ext env (b.put { b.dec.inc with remaining := b.dec.remaining - 1 }) rest (Nat.le_of_eq h)
        have he : (b.put { b.dec.inc with remaining := b.dec.remaining - 1 }).ext rest =
          (b.ext rest).put { (b.ext rest).dec.inc with remaining := b.dec.remaining - 1 } := rfl
        rw [he] at hb
        rw [hb]
        cases hd : bodyDone env (b.put { b.dec.inc with remaining := b.dec.remaining - 1 }) with
        | none => rfl
        | some r =>
          have hr := bodyDone_ring _ _ _ hd
          simp only [Option.map_some]
          rw [reset_ext r rest (by rw [hr.1, hr.2]; exact Nat.le_of_eq h)]
  · intro r hr h0
    simp only [bext_nil] at hr
    unfold feedBody at hr
    split at hr
    · cases hr; exact (feedNew_ext (b.dec.goto .new) c [] h).2
    · simp only at hr
      split at hr
      · cases hr; exact h
      · cases hd : bodyDone env (b.put { b.dec.inc with remaining := b.dec.remaining - 1 }) with
        | none => rw [hd] at hr; cases hr
        | some x =>
          rw [hd] at hr
          have hx := bodyDone_ring _ _ _ hd
          cases hr
          exact reset_len x (by rw [hx.1, hx.2]; exact h)

theorem feedNl_ok (env : Env) (b : Bus) (c : Byte) (h : b.dec.buflen + 1 = b.dec.ring.length) :
    StepOk (fun rest => feedNl env (b.ext rest) c) := by
  have hb := feedBody_ok env (b.put ((pull b.dec b.dec.buflen 0).goto .body)) c
    (by show 0 + 1 = (b.dec.ring.drop b.dec.buflen).length; rw [List.length_drop]; omega)
  constructor
  · intro rest
    simp only [bext_nil]
    unfold feedNl
    rw [show (b.ext rest).dec = b.dec.ext rest from rfl, show (b.dec.ext rest).remaining = b.dec.remaining from rfl,
      show (b.dec.ext rest).buflen = b.dec.buflen from rfl, pull_ext _ _ _ _ (Nat.le_of_eq h), pull_ext _ b.dec.buflen _ _ (by omega)]
    split
    · rfl
    · have := hb.1 rest
      simp only [bext_nil] at this
      exact this
  · intro r hr h0
    simp only [bext_nil] at hr
    unfold feedNl at hr
    split at hr
    · cases hr
      show 0 = (b.dec.ring.drop _).length
      rw [List.length_drop]; omega
    · exact hb.2 r (by simp only [bext_nil]; exact hr) h0

theorem feedDataHead_ok (d : Parser) (h : d.buflen + 1 = d.ring.length) :
    (∀ rest, feedDataHead (d.ext rest) = (feedDataHead d).map (fun x => x.ext rest)) ∧
    ∀ r, feedDataHead d = some r → r.buflen = r.ring.length := by
  constructor
  · intro rest
    unfold feedDataHead
    rw [show (d.ext rest).buflen = d.buflen from rfl]
    split
    · rw [copyOut_ext _ _ _ (by omega)]
      cases copyOut d 3 with
      | none => rfl
      | some x =>
        simp only [Option.bind_eq_bind, Option.bind_some]
        cases x[0]? with
        | none => rfl
        | some p =>
          simp only [Option.bind_some]
          cases x[1]? with
          | none => rfl
          | some q =>
            simp only [Option.bind_some]
            cases x[2]? with
            | none => rfl
            | some r =>
              simp only [Option.bind_some, Option.map_some]
              exact congrArg some (pull_ext { d.goto .dataBody with dataChannel := p.toNat, dataSize := q.toNat * 256 + r.toNat } (d.buflen + 1) 0 rest (Nat.le_of_eq h))
    · rfl
  · intro r hr
    unfold feedDataHead at hr
    split at hr
    · cases hx : copyOut d 3 with
      | none => rw [hx] at hr; cases hr
      | some x =>
        rw [hx] at hr
        simp only [Option.bind_eq_bind, Option.bind_some] at hr
        cases h1 : x[0]? with
        | none => rw [h1] at hr; cases hr
        | some p =>
          cases h2 : x[1]? with
          | none => rw [h1, h2] at hr; cases hr
          | some q =>
            cases h3 : x[2]? with
            | none => rw [h1, h2, h3] at hr; cases hr
            | some y =>
              rw [h1, h2, h3] at hr
              simp only [Option.bind_some] at hr
              cases hr
              show 0 = (d.ring.drop _).length
              rw [List.length_drop]; omega
    · cases hr; exact h

theorem feedDataBody_ok (env : Env) (b : Bus) (h : b.dec.buflen + 1 = b.dec.ring.length) :
    StepOk (fun rest => feedDataBody env (b.ext rest)) := by
  constructor
  · intro rest
    simp only [bext_nil]
    unfold feedDataBody
    simp only
    rw [show (b.ext rest).dec.inc = b.dec.inc.ext rest from rfl, show (b.dec.inc.ext rest).dataSize = b.dec.inc.dataSize from rfl,
      show (b.dec.inc.ext rest).buflen = b.dec.inc.buflen from rfl]
    split
    · rename_i hs
      rw [copyOut_ext b.dec.inc _ _ (Nat.le_trans hs (Nat.le_of_eq h))]
      cases copyOut b.dec.inc b.dec.inc.dataSize with
      | none => rfl
      | some p =>
        simp only [Option.bind_eq_bind, Option.bind_some]
        have := submitData_ext env (b.put b.dec.inc) p rest
        rw [show (b.put b.dec.inc).ext rest = (b.ext rest).put (b.dec.inc.ext rest) from rfl] at this
        rw [this]
        cases hd : submitData env (b.put b.dec.inc) p with
        | none => rfl
        | some r =>
          have hr := submitData_ring _ _ _ _ hd
          simp only [Option.map_some, Option.bind_some]
          rw [reset_ext r rest (by rw [hr.1, hr.2]; exact Nat.le_of_eq h)]
    · rfl
  · intro r hr h0
    simp only [bext_nil] at hr
    unfold feedDataBody at hr
    simp only at hr
    split at hr
    · cases hp : copyOut b.dec.inc b.dec.inc.dataSize with
      | none => rw [hp] at hr; cases hr
      | some p =>
        rw [hp] at hr
        simp only [Option.bind_eq_bind, Option.bind_some] at hr
        cases hd : submitData env (b.put b.dec.inc) p with
        | none => rw [hd] at hr; cases hr
        | some x =>
          rw [hd] at hr
          have hx := submitData_ring _ _ _ _ hd
          cases hr
          exact reset_len x (by rw [hx.1, hx.2]; exact h)
    · cases hr; exact h

/-- One character: bytes not looked at do not matter, and the buffer is exactly what was read. -/
theorem feedChar_ok (env : Env) (b : Bus) (c : Byte) (h : b.dec.buflen + 1 = b.dec.ring.length) :
    StepOk (fun rest => feedChar env (b.ext rest) c) := by
  unfold feedChar
  have hs : ∀ rest, (b.ext rest).dec.state = b.dec.state := fun _ => rfl
  simp only [hs]
  cases b.dec.state with
  | new =>
    refine ⟨fun rest => ?_, fun r hr _ => ?_⟩
    · show some (_, (b.ext rest).put (feedNew (b.dec.ext rest) c)) = _
      rw [(feedNew_ext b.dec c rest h).1]
      simp only [bext_nil]
      rfl
    · simp only [bext_nil] at hr
      cases hr; exact (feedNew_ext b.dec c [] h).2
  | header => exact feedHeader_ok env b c h
  | headerQuote =>
    refine ⟨fun rest => ?_, fun r hr _ => ?_⟩
    · show some (_, (b.ext rest).put (feedQuote (b.dec.ext rest) c)) = _
      rw [(feedQuote_ext b.dec c rest h).1]
      simp only [bext_nil]
      rfl
    · simp only [bext_nil] at hr
      cases hr; exact (feedQuote_ext b.dec c [] h).2
  | headerNl => exact feedNl_ok env b c h
  | body => exact feedBody_ok env b c h
  | dataHead =>
    refine ⟨fun rest => ?_, fun r hr _ => ?_⟩
    · show (feedDataHead (b.dec.ext rest)).map _ = _
      rw [(feedDataHead_ok b.dec h).1 rest]
      simp only [bext_nil]
      cases feedDataHead b.dec <;> rfl
    · simp only [bext_nil] at hr
      cases hd : feedDataHead b.dec with
      | none => rw [hd] at hr; cases hr
      | some x => rw [hd] at hr; cases hr; exact (feedDataHead_ok b.dec h).2 x hd
  | dataBody => exact feedDataBody_ok env b h

end Verif.Rtsp
