import Verif.Proof.RtspRead
/-!
# Reading an RTSP message

C88: reading returns what the first line of that name holds, and leaves the message as it was.
-/
namespace Verif.Rtsp
open Verif.C
open Spec (Conv AtRest SameText)

/-- A message for the examples: a source chooses a format. -/
def sampleRead : Msg :=
  { newMsg with
    type := .request, method := bytes "SET_PARAMETER", uri := bytes "*", isSealed := true, isUsed := true
    headers := [⟨bytes "CSeq", some (bytes "4"), [bytes "4"], none⟩, ⟨bytes "Session", some (bytes "6B8B4567;timeout=30"), [bytes "6B8B4567;timeout=30"], none⟩]
    bodyHeaders := [⟨bytes "wfd_video_formats", some (bytes "00 00 02 10 00000080 0 0x1F"), [bytes "00", bytes "00", bytes "02", bytes "10", bytes "00000080", bytes "0", bytes "0x1F"], none⟩,
      ⟨bytes "WFD_Video_Formats", some (bytes "none"), [bytes "none"], none⟩, ⟨bytes "empty", none, [], none⟩] }

/-- **C88 (parameters).** Reading a parameter of the body of a message at rest gives what its first line of that name (in any case) holds: the tokens in order,
converted as asked, `-ENOENT` without such a line or without enough tokens, `-EINVAL` for a token that is no number; undefined only if a number is out of range.
The message is at rest again, with the same text. -/
theorem parameter_exact (m : Msg) (hm : AtRest m) (name : List Byte) (hn : name ≠ []) (cs : List Conv) :
    (read m (.bodyStart :: .headerStart name :: (cs.map Conv.rd ++ [.headerEnd, .bodyEnd]))).map (fun r => (r.1, r.2.2)) = Spec.line m.bodyHeaders name cs ∧
    ∀ r, read m (.bodyStart :: .headerStart name :: (cs.map Conv.rd ++ [.headerEnd, .bodyEnd])) = some r → AtRest r.2.1 ∧ SameText r.2.1 m := by
  obtain ⟨hs, ht, hb, hh⟩ := hm
  have h0 : readBasic m .bodyStart = some (0, { m with iterBody := true }, []) := by
    simp [readBasic, enterBody, hs, ht, hb, hh]
  have h1 : read m (.bodyStart :: .headerStart name :: (cs.map Conv.rd ++ [.headerEnd, .bodyEnd])) =
      readLoop { m with iterBody := true } (.headerStart name :: (cs.map Conv.rd ++ [.headerEnd, .bodyEnd])) := by
    rw [read_eq m hs ht, readLoop_ok h0]
    cases readLoop { m with iterBody := true } (.headerStart name :: (cs.map Conv.rd ++ [.headerEnd, .bodyEnd])) <;> rfl
  rw [h1]
  have h2 := readLoop_line { m with iterBody := true } name hn hs ht hh cs [.bodyEnd]
  have e : (if ({ m with iterBody := true } : Msg).iterBody then m.bodyHeaders else m.headers) = m.bodyHeaders := rfl
  simp only [e] at h2
  cases hl : Spec.line m.bodyHeaders name cs with
  | none =>
    simp only [if_true, hl] at h2
    rw [h2]
    exact ⟨rfl, fun r h => by cases h⟩
  | some q =>
    obtain ⟨c, vs⟩ := q
    simp only [if_true, hl] at h2
    by_cases hc : c < 0
    · rw [if_pos hc] at h2
      obtain ⟨k, hk⟩ := h2
      rw [hk]
      exact ⟨rfl, fun r h => by cases h; exact ⟨⟨hs, ht, rfl, rfl⟩, rfl⟩⟩
    · rw [if_neg hc] at h2
      obtain ⟨hc0, k, hk⟩ := h2
      have h3 : readLoop { m with iterBody := true, iterToken := k } [.bodyEnd] = some (0, { m with iterToken := k }, []) := by
        have : readBasic { m with iterBody := true, iterToken := k } .bodyEnd = some (0, { m with iterToken := k }, []) := by
          simp [readBasic, exitBody, hs, ht, hb, hh]
        rw [readLoop_ok this]; rfl
      have hk' : readLoop { m with iterBody := true } (.headerStart name :: (cs.map Conv.rd ++ [.headerEnd, .bodyEnd])) = some (0, { m with iterToken := k }, vs) := by
        rw [hk]
        show (readLoop { m with iterBody := true, iterToken := k } [.bodyEnd]).map _ = _
        rw [h3]; simp
      rw [hk', hc0]
      exact ⟨rfl, fun r h => by cases h; exact ⟨⟨hs, ht, hb, hh⟩, rfl⟩⟩

example : AtRest sampleRead ∧
    (read sampleRead [.bodyStart, .headerStart (bytes "wfd_video_formats"), .skip, .skip, .skip, .skip, .hex, .hex, .hex, .headerEnd, .bodyEnd]).map (fun r => (r.1, r.2.2)) =
      some (0, [.nat 128, .nat 0, .nat 31]) ∧
    (read sampleRead [.bodyStart, .headerStart (bytes "empty"), .str, .headerEnd, .bodyEnd]).map (fun r => (r.1, r.2.2)) = some (-ENOENT, []) := by
  refine ⟨⟨rfl, by decide, rfl, rfl⟩, ?_⟩; decide +kernel

/-- **C88 (headers).** The same for the headers outside of the body. -/
theorem header_exact (m : Msg) (hm : AtRest m) (name : List Byte) (hn : name ≠ []) (cs : List Conv) :
    (read m (.headerStart name :: (cs.map Conv.rd ++ [.headerEnd]))).map (fun r => (r.1, r.2.2)) = Spec.line m.headers name cs ∧
    ∀ r, read m (.headerStart name :: (cs.map Conv.rd ++ [.headerEnd])) = some r → AtRest r.2.1 ∧ SameText r.2.1 m := by
  obtain ⟨hs, ht, hb, hh⟩ := hm
  have h1 : read m (.headerStart name :: (cs.map Conv.rd ++ [.headerEnd])) = readLoop m (.headerStart name :: (cs.map Conv.rd ++ [.headerEnd])) := by
    rw [read_eq m hs ht]
  rw [h1]
  have h2 := readLoop_line m name hn hs ht hh cs []
  have e : (if m.iterBody then m.bodyHeaders else m.headers) = m.headers := by rw [hb]; rfl
  rw [e] at h2
  cases hl : Spec.line m.headers name cs with
  | none => simp only [hl] at h2; rw [h2]; exact ⟨rfl, fun r h => by cases h⟩
  | some q =>
    obtain ⟨c, vs⟩ := q
    simp only [hl] at h2
    by_cases hc : c < 0
    · rw [if_pos hc] at h2
      obtain ⟨k, hk⟩ := h2
      rw [hk]
      exact ⟨rfl, fun r h => by cases h; exact ⟨⟨hs, ht, rfl, rfl⟩, rfl⟩⟩
    · rw [if_neg hc] at h2
      obtain ⟨hc0, k, hk⟩ := h2
      rw [hk, hc0]
      refine ⟨by simp [readLoop], fun r h => ?_⟩
      simp only [readLoop, Option.map_some, Option.some.injEq] at h
      subst h
      exact ⟨⟨hs, ht, hb, hh⟩, rfl⟩

example : (read sampleRead [.headerStart (bytes "session"), .str, .headerEnd]).map (fun r => (r.1, r.2.2)) = some (0, [.text (bytes "6B8B4567;timeout=30")]) := by
  decide +kernel

/-- **C88 (whole values).** Asking for the whole value of a parameter gives the text behind the colon of its first line, or the empty text if the line has none. -/
theorem whole_value_exact (m : Msg) (hm : AtRest m) (name : List Byte) (hn : name ≠ []) :
    (read m [.bodyStart, .headerStart name, .raw, .headerEnd, .bodyEnd]).map (fun r => (r.1, r.2.2)) =
      (match Spec.named m.bodyHeaders name with
       | none => some (-ENOENT, [])
       | some h => some (0, [.text (h.value.getD [])])) ∧
    ∀ r, read m [.bodyStart, .headerStart name, .raw, .headerEnd, .bodyEnd] = some r → AtRest r.2.1 ∧ SameText r.2.1 m := by
  obtain ⟨hs, ht, hb, hh⟩ := hm
  have h0 : readBasic m .bodyStart = some (0, { m with iterBody := true }, []) := by
    simp [readBasic, enterBody, hs, ht, hb, hh]
  have hf := find_idx (fun h : Header => caseEq h.key name) m.bodyHeaders
  cases hq : m.bodyHeaders.findIdx? (fun h => caseEq h.key name) with
  | none =>
    simp only [hq] at hf
    have h1 : readBasic { m with iterBody := true } (.headerStart name) = some (-ENOENT, { m with iterBody := true }, []) := by
      simp [readBasic, enterHeader, hs, ht, hn, hh, hq]
    have h2 : read m [.bodyStart, .headerStart name, .raw, .headerEnd, .bodyEnd] = some (-ENOENT, out { m with iterBody := true } m.iterToken, []) := by
      rw [read_eq m hs ht, readLoop_ok h0, readLoop_fail h1 (by decide), leave_eq { m with iterBody := true } hs ht]
      rfl
    rw [h2]
    simp only [Spec.named, hf]
    exact ⟨rfl, fun r h => by cases h; exact ⟨⟨hs, ht, rfl, rfl⟩, rfl⟩⟩
  | some i =>
    simp only [hq] at hf
    obtain ⟨h, hi, hf⟩ := hf
    have h1 : readBasic { m with iterBody := true } (.headerStart name) = some (0, { m with iterBody := true, iterHeader := some (true, i), iterToken := 0 }, []) := by
      simp [readBasic, enterHeader, hs, ht, hn, hh, hq]
    have h2 : readBasic { m with iterBody := true, iterHeader := some (true, i), iterToken := 0 } .raw =
        some (0, { m with iterBody := true, iterHeader := some (true, i), iterToken := 0 }, [.text (h.value.getD [])]) := by
      simp [readBasic, hs, ht, getIter, hi]
    have h3 : readBasic { m with iterBody := true, iterHeader := some (true, i), iterToken := 0 } .headerEnd = some (0, { m with iterBody := true, iterToken := 0 }, []) := by
      simp [readBasic, exitHeader, hs, ht, hh]
    have h4 : readBasic { m with iterBody := true, iterToken := 0 } .bodyEnd = some (0, { m with iterToken := 0 }, []) := by
      simp [readBasic, exitBody, hs, ht, hb, hh]
    have h5 : read m [.bodyStart, .headerStart name, .raw, .headerEnd, .bodyEnd] = some (0, { m with iterToken := 0 }, [.text (h.value.getD [])]) := by
      rw [read_eq m hs ht, readLoop_ok h0, readLoop_ok h1, readLoop_ok h2, readLoop_ok h3, readLoop_ok h4]
      rfl
    rw [h5]
    simp only [Spec.named, hf]
    exact ⟨rfl, fun r h => by cases h; exact ⟨⟨hs, ht, hb, hh⟩, rfl⟩⟩

example : (read sampleRead [.bodyStart, .headerStart (bytes "WFD_VIDEO_FORMATS"), .raw, .headerEnd, .bodyEnd]).map (fun r => (r.1, r.2.2)) =
    some (0, [.text (bytes "00 00 02 10 00000080 0 0x1F")]) := by decide +kernel

/-- **C88 (failures).** Whatever the format and wherever the position: a read that fails leaves a sealed message at rest. -/
theorem failed_read_rests (m : Msg) (hs : m.isSealed = true) (ht : m.type ≠ .data) (ts : List Rd) (r : Int × Msg × List Val) (h : read m ts = some r) (hr : r.1 < 0) :
    AtRest r.2.1 := by
  have : ∀ (ts : List Rd) (m : Msg), m.isSealed = true → m.type ≠ .data → ∀ r, readLoop m ts = some r → r.1 < 0 → AtRest r.2.1 := by
    intro ts
    induction ts with
    | nil => intro m _ _ r h hr; cases h; exact absurd hr (by show ¬ (0 : Int) < 0; decide)
    | cons t ts ih =>
      intro m hs ht r h hr
      cases hb : readBasic m t with
      | none => rw [readLoop_ub hb] at h; cases h
      | some q =>
        obtain ⟨c, m', v⟩ := q
        have hm := moved_readBasic m t _ hb
        have hs' : m'.isSealed = true := by rw [hm.seal, hs]
        have ht' : m'.type ≠ .data := by rw [hm.type]; exact ht
        by_cases hc : c < 0
        · rw [readLoop_fail hb hc, leave_eq m' hs' ht'] at h
          cases h
          exact ⟨hs', ht', rfl, rfl⟩
        · simp only [readLoop, hb, Option.bind_eq_bind, Option.bind_some, if_neg hc, Option.bind_eq_some_iff] at h
          obtain ⟨q, hq, h⟩ := h
          cases h
          exact ih m' hs' ht' q hq hr
  refine this ts m hs ht r ?_ hr
  simpa [read, ht, hs] using h

example : ∃ r, read sampleRead [.bodyStart, .headerStart (bytes "wfd_video_formats"), .str, .bodyStart] = some r ∧ r.1 < 0 := by
  refine ⟨_, rfl, ?_⟩; decide +kernel

/-- **C88 (reading changes nothing).** After any sequence of reads, skips, single reads and rewinds a message that was at rest has the same text; and without conversions of
numbers all of them are defined. -/
theorem reading_keeps_text (ls : List Spec.Look2) (m : Msg) (hm : m.iterHeader = none) :
    (∀ m', Spec.looks m ls = some m' → SameText m' m) ∧
    ((∀ l ∈ ls, match l with
        | .read ts => Spec.hasNumber ts = false
        | .skip ts => Spec.hasNumber ts = false
        | .basic t => Spec.hasNumber [t] = false
        | .rewind _ => True) → (Spec.looks m ls).isSome = true) := by
  have hv : Valid m := fun b i h => by rw [hm] at h; cases h
  clear hm
  induction ls generalizing m with
  | nil => exact ⟨fun m' h => by cases h; exact rfl, fun _ => rfl⟩
  | cons l ls ih =>
    constructor
    · intro m' h
      simp only [Spec.looks, Option.bind_eq_some_iff] at h
      obtain ⟨r, hr, h⟩ := h
      have h1 := moved_look m l r hr
      exact ((ih r.2 (h1.2 hv)).1 m' h).trans h1.1
    · intro hn
      have hd : (Spec.lookAt m l).isSome = true := by
        have hl := hn l (by simp)
        cases l with
        | read ts =>
          simp only [Spec.lookAt, Option.isSome_map, read]
          split
          · rfl
          · split
            · rfl
            · exact readLoop_defined ts m hv hl
        | skip ts =>
          simp only [Spec.lookAt, skip]
          split
          · rfl
          · split
            · rfl
            · exact skipLoop_defined ts m hv hl
        | basic t => simp only [Spec.lookAt, Option.isSome_map]; exact readBasic_defined m t hv hl
        | rewind c => rfl
      cases hr : Spec.lookAt m l with
      | none => rw [hr] at hd; cases hd
      | some r =>
        simp only [Spec.looks, hr, Option.bind_some]
        exact (ih r.2 ((moved_look m l r hr).2 hv)).2 (fun l' h => hn l' (by simp [h]))

example : (Spec.looks sampleRead [.basic .bodyStart, .read [.headerStart (bytes "empty"), .raw], .skip [.headerEnd, .headerStart []], .rewind true]).isSome = true := by
  decide +kernel

/-- **C88 (hexadecimal).** A bit mask written as eight hexadecimal digits (`%08x`, as both ends do) is read back. -/
theorem hex_read_back (n : Nat) (h : n < W32) : sscanfX (Spec.hex8 n) = some (some n) := by
  have hW : W32 = 4294967296 := rfl
  rw [hW] at h
  have hex : Spec.hex8 n = [Mac.hexDigit (n / 268435456 % 16), Mac.hexDigit (n / 16777216 % 16), Mac.hexDigit (n / 1048576 % 16), Mac.hexDigit (n / 65536 % 16),
      Mac.hexDigit (n / 4096 % 16), Mac.hexDigit (n / 256 % 16), Mac.hexDigit (n / 16 % 16), Mac.hexDigit (n % 16)] := by
    simp [Spec.hex8, List.range, List.range.loop]
  have e : n / 268435456 % 16 * 268435456 + n / 16777216 % 16 * 16777216 + n / 1048576 % 16 * 1048576 + n / 65536 % 16 * 65536 + n / 4096 % 16 * 4096 +
      n / 256 % 16 * 256 + n / 16 % 16 * 16 + n % 16 = n := by omega
  rw [hex]
  generalize ha : n / 268435456 % 16 = a at *
  generalize hb : n / 16777216 % 16 = b at *
  generalize hc : n / 1048576 % 16 = c at *
  generalize hd : n / 65536 % 16 = d at *
  generalize he : n / 4096 % 16 = e' at *
  generalize hf : n / 256 % 16 = f at *
  generalize hg : n / 16 % 16 = g at *
  generalize hh : n % 16 = i at *
  obtain ⟨a1, a2, a3, a4, a5, a6, a7⟩ := hexDigit_ok a (by omega)
  obtain ⟨b1, b2, b3, b4, b5, b6, b7⟩ := hexDigit_ok b (by omega)
  obtain ⟨c1, c2, _⟩ := hexDigit_ok c (by omega)
  obtain ⟨d1, d2, _⟩ := hexDigit_ok d (by omega)
  obtain ⟨e1, e2, _⟩ := hexDigit_ok e' (by omega)
  obtain ⟨f1, f2, _⟩ := hexDigit_ok f (by omega)
  obtain ⟨g1, g2, _⟩ := hexDigit_ok g (by omega)
  obtain ⟨i1, i2, _⟩ := hexDigit_ok i (by omega)
  generalize Mac.hexDigit a = A at *
  generalize Mac.hexDigit b = B at *
  generalize Mac.hexDigit c = C at *
  generalize Mac.hexDigit d = D at *
  generalize Mac.hexDigit e' = E at *
  generalize Mac.hexDigit f = F at *
  generalize Mac.hexDigit g = G at *
  generalize Mac.hexDigit i = I at *
  have hp : basePrefix 16 [A, B, C, D, E, F, G, I] = (0, 16) := by
    unfold basePrefix
    split
    · rename_i x y z w hx
      cases hx
      rw [if_neg (by simp [b6, b7])]
      simp
    · simp
    · simp
  have hs : scanNumber 16 [A, B, C, D, E, F, G, I] = (false, n, 8) := by
    simp [scanNumber, a3, a4, a5, hp, a1, b1, c1, d1, e1, f1, g1, i1, digitsVal, a2, b2, c2, d2, e2, f2, g2, i2]
    omega
  have hW6 : W64 = 18446744073709551616 := rfl
  have hu : strtoul 16 [A, B, C, D, E, F, G, I] = (n, 8, false) := by
    unfold strtoul
    rw [hs]
    show (if W64 ≤ n then (W64 - 1, 8, true) else ((if false = true then (W64 - n) % W64 else n), 8, false)) = (n, 8, false)
    rw [if_neg (by rw [hW6]; omega), if_neg (by decide)]
  unfold sscanfX
  rw [hu]
  show (if (8 : Nat) = 0 then some none else if W32 ≤ n then none else some (some n)) = some (some n)
  rw [if_neg (by decide), if_neg (by rw [hW]; omega)]

example : Spec.hex8 131071 = bytes "0001ffff" ∧ sscanfX (bytes "0001ffff") = some (some 131071) ∧ sscanfX (bytes "x") = some none ∧ sscanfX (bytes "100000000") = none := by
  decide +kernel

end Verif.Rtsp
