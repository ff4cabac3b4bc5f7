import Verif.Proof.HtableMap
/-! # Hash tables with typed keys (C135)

As in C11 and C12 all addresses are assumed to have the same highest bit, hence `_partial`. -/
namespace Verif.HtableMap
open Verif.C Verif.Htable
open Verif.HtableMap.Spec (Map Allowed next AllAllowed Right Legal LegalRun)

/-- **C135 (numbers).** A table of `unsigned int` keys (the links of the daemon, by interface index) is a map: for every
history of calls, with elements whose addresses are used again for other keys, failing allocations and any number of
rehashings, each lookup and removal gives the element with the key if there is one, and iterations see each element
once. -/
theorem uint_is_map_partial (B : Nat) (hB : 1 ≤ B) (mem : W → BitVec 32) (ops : List (Call (BitVec 32)))
    (hlen : ops.length ≤ 2 ^ 29) (hl : LegalRun uint B ⟨mem, init⟩ (fun _ => none) ops) :
    ∃ s outs, run uint ⟨mem, init⟩ ops = some (s, outs) ∧ AllAllowed (fun _ => none) ops outs :=
  run_holds hB good_uint ops _ _ [] ⟨.inl ⟨rfl, rfl⟩, List.nodup_nil, fun _ _ => by simp⟩ (by simpa using hlen) hl

/-- **C135 (long numbers).** The same for 64-bit keys (the waiting RTSP calls, by cookie). -/
theorem u64_is_map_partial (B : Nat) (hB : 1 ≤ B) (mem : W → BitVec 64) (ops : List (Call (BitVec 64)))
    (hlen : ops.length ≤ 2 ^ 29) (hl : LegalRun u64 B ⟨mem, init⟩ (fun _ => none) ops) :
    ∃ s outs, run u64 ⟨mem, init⟩ ops = some (s, outs) ∧ AllAllowed (fun _ => none) ops outs :=
  run_holds hB good_u64 ops _ _ [] ⟨.inl ⟨rfl, rfl⟩, List.nodup_nil, fun _ _ => by simp⟩ (by simpa using hlen) hl

/-- **C135 (strings).** The same for strings (the peers of a link, by address), which are found by their contents, NULL
included, whatever the sign of `char`, and with or without remembered hashes. -/
theorem str_is_map_partial (ext : Byte → W) (B : Nat) (hB : 1 ≤ B) (mem : W → Option (List Byte))
    (ops : List (Call (Option (List Byte)))) (hlen : ops.length ≤ 2 ^ 29)
    (hl : LegalRun (str ext) B ⟨mem, init⟩ (fun _ => none) ops) :
    ∃ s outs, run (str ext) ⟨mem, init⟩ ops = some (s, outs) ∧ AllAllowed (fun _ => none) ops outs :=
  run_holds hB (good_str ext) ops _ _ [] ⟨.inl ⟨rfl, rfl⟩, List.nodup_nil, fun _ _ => by simp⟩ (by simpa using hlen) hl

/-- **C135 (remembered hashes).** A place for the hash that starts unset, or right, is right for ever: each call leaves
the hash of the string in it. -/
theorem remembered_right (ext : Byte → W) (s : Option (List Byte)) (c : Option W) (h : Right (str ext) s c) :
    (hashStr ext s c).1 = djb ext s ∧ (hashStr ext s c).2 = c.map (fun _ => djb ext s) ∧
      Right (str ext) s (hashStr ext s c).2 := by
  have h1 : (hashStr ext s c).1 = djb ext s := (good_str ext).pass s c h
  have h2 : (hashStr ext s c).2 = c.map (fun _ => djb ext s) := by
    rcases h with rfl | rfl | rfl
    · rfl
    · rfl
    · show (hashStr ext s (some (djb ext s))).2 = some (djb ext s)
      unfold hashStr
      by_cases h0 : djb ext s ≠ 0#64
      · simp only [if_pos h0]
      · simp only [if_neg h0]
  refine ⟨h1, h2, ?_⟩
  rw [h2]
  cases c with
  | none => exact Or.inl rfl
  | some _ => exact Or.inr (Or.inr rfl)

/-- Signed `char`. -/
def signExt (b : Byte) : W := (BitVec.ofNat 8 b.toNat).signExtend 64

/-- A history with an address used again under another key, two keys with equal hashes and a remembered hash. -/
def history : List (Call (Option (List Byte))) :=
  [.insert true 0x1000#64 (some (bytes "ab")) none, .insert true 0x1010#64 (some (bytes "bA")) (some 0#64),
   .lookup (some (bytes "bA")) none, .remove (some (bytes "ab")) (some (djb signExt (some (bytes "ab")))),
   .lookup (some (bytes "ab")) none, .insert true 0x1000#64 none none, .lookup none none, .iterate]

example : djb signExt (some (bytes "ab")) = djb signExt (some (bytes "bA")) ∧
    (run (str signExt) ⟨fun _ => none, init⟩ history).map (·.2) =
    some [.ok true, .ok true, .found (some 0x1010#64), .found (some 0x1000#64), .found none, .ok true,
      .found (some 0x1000#64), .seen [0x1010#64, 0x1000#64]] := by decide +kernel

/-- A wrong remembered hash (the caller's error that `Right` excludes) hides an element. -/
example : (run (str signExt) ⟨fun _ => none, init⟩ [.insert true 0x1000#64 (some (bytes "ab")) none,
    .lookup (some (bytes "ab")) (some 7#64)]).map (·.2) = some [.ok true, .found none] := by decide +kernel

/-- The rules are kept in a history of numbers. -/
example : LegalRun uint 12 ⟨fun _ => 0#32, init⟩ (fun _ => none)
    [.insert true 0x1000#64 3#32 none, .lookup 3#32 none, .remove 3#32 none, .insert false 0x1000#64 4#32 none] := by
  refine ⟨⟨rfl, fun _ => by simp, by decide, Or.inl rfl⟩, fun s1 o1 _ => ⟨Or.inl rfl, fun s2 o2 _ => ⟨Or.inl rfl, fun s3 o3 e3 => ?_⟩⟩⟩
  refine ⟨⟨?_, fun x => ?_, by decide, Or.inl rfl⟩, fun _ _ _ => trivial⟩
  · show (if (4#32 : BitVec 32) = 3#32 then none else next (fun _ => none) (.insert true 0x1000#64 3#32 none) o1 4#32) = none
    rw [if_neg (by decide)]
    rcases o1 with (_ | _) | _ | _ <;> simp [next]
  · show (if x = 3#32 then none else next (fun _ => none) (.insert true 0x1000#64 3#32 none) o1 x) ≠ some 0x1000#64
    split
    · simp
    · next hx =>
      rcases o1 with (_ | _) | _ | _ <;> simp [next, hx]

end Verif.HtableMap
