import Verif.Proof.Wpas
import Verif.Proof.WpasRead
/-! # C27, C28, C29, C67 – wpa_supplicant control messages -/
namespace Verif.Wpas
open Verif.C

/-! ## C27 -/

/-- **C27**, what holds: a request built from a name and arguments (strings, numbers, key/value pairs) is put
on the wire as text from which the receiving parser makes a request with the same name and arguments, and
reading these with the corresponding formats gives the values back.  Missing from the full claim: strings
C06 excludes (empty ones, and those with a single quote but no white space), names that start with `IFNAME=`,
and requests that are longer than the receive buffer. -/
theorem request_roundtrip_partial (jk jk' : Nat → Byte) (name : List Byte) (items : List Spec.Item)
    (hname : Spec.Quotable name) (hif : ¬ bytes "IFNAME=" <+: name) (hok : ∀ a ∈ items, a.Ok)
    (hsz : ((name :: items.map Spec.Item.word).map (fun t => t.length * 2 + 4)).sum ≤ 16383) :
    ∃ m0 m1 m2 d m, newRequest name = some m0 ∧ append m0 (items.map Spec.Item.arg) = (0, m1) ∧
      sealMsg jk m1 = some (0, m2) ∧ wire m2 = some d ∧ recv jk' true d = some (some m) ∧
      m.type = .request ∧ m.name = some name ∧ m.ifname = none ∧
      m.argv = name :: items.map Spec.Item.word ∧
      ∃ m', readAll m (items.map Spec.Item.ty) = some (0, m', items.map Spec.Item.val) := by
  have hroom : Qstr.room (name :: items.map Spec.Item.word) ≤ 16383 := hsz
  refine ⟨{ newMsg (some name) with type := .request },
    { newMsg (some name) with type := .request, argv := name :: items.map Spec.Item.word }, ?_⟩
  obtain ⟨rest, hseal⟩ := seal_line jk
    { newMsg (some name) with type := .request, argv := name :: items.map Spec.Item.word } rfl (by simp) hroom
  have hgood : ∀ t ∈ name :: items.map Spec.Item.word, Qstr.Good t := by
    intro t ht
    rcases List.mem_cons.mp ht with rfl | ht
    · exact good_of hname
    · obtain ⟨a, ha, rfl⟩ := List.mem_map.mp ht
      exact good_of (hok a ha).quotable
  have htok := Qstr.tokens_line _ hgood
  have hll := line_len (name :: items.map Spec.Item.word) []
  simp only [List.length_nil, Nat.zero_add] at hll
  have hline : Qstr.lineF [] (name :: items.map Spec.Item.word) ≠ [] := by
    intro h; rw [h] at htok; simp [Qstr.Spec.tokens, Qstr.Spec.words] at htok
  have hplain : Spec.Split (Qstr.lineF [] (name :: items.map Spec.Item.word)) none
      (Qstr.lineF [] (name :: items.map Spec.Item.word)) := by
    refine .plain _ (fun hp => hif ?_)
    have henc : Qstr.enc name <+: Qstr.lineF [] (name :: items.map Spec.Item.word) := by
      rw [Qstr.lineF]; exact lineF_ge _ _
    -- the name ends before the first blank or the end of the line
    have hsplit := List.prefix_or_prefix_of_prefix hp henc
    rcases hsplit with h | h
    · exact enc_head h
    · -- the encoded name would be a proper prefix of "IFNAME=", so what follows is a blank
      have hshort : ∀ p : List Byte, p <+: bytes "IFNAME=" → ch ' ' ∉ p := by
        intro p hp hm
        exact absurd (hp.subset hm) (by decide)
      have hlf : Qstr.lineF [] (name :: items.map Spec.Item.word) = Qstr.lineF (Qstr.enc name) (items.map Spec.Item.word) := by
        rw [Qstr.lineF]; simp
      rw [hlf] at hp
      cases hit : items.map Spec.Item.word with
      | nil =>
        rw [hit] at hp
        rw [Qstr.lineF] at hp
        exact enc_head hp
      | cons t ts =>
        have hne : Qstr.enc name ≠ [] := Qstr.enc_ne (good_of hname)
        have h1 : Qstr.enc name ++ [ch ' '] <+: Qstr.lineF (Qstr.enc name) (items.map Spec.Item.word) := by
          rw [hit, Qstr.lineF, if_neg hne, List.append_assoc]
          exact List.IsPrefix.trans (by rw [← List.append_assoc]; exact List.prefix_append _ _) (lineF_ge ts _)
        rcases List.prefix_or_prefix_of_prefix hp h1 with h2 | h2
        · rcases List.prefix_concat_iff.mp h2 with h2 | h2
          · exact absurd (congrArg (fun l => l.getLast?) h2) (by simp; decide)
          · exact enc_head h2
        · exact absurd (hshort _ h2) (by simp)
  have hparse := parse_server jk' hplain (by omega)
  rw [htok] at hparse
  have hnq : name ≠ [] := hname.1
  have hnz : ∀ t ∈ items.map Spec.Item.word, (0 : Byte) ∉ t := fun t ht => (hgood t (by simp [ht])).2.1
  have hreq : parseRequest (name :: items.map Spec.Item.word) =
      some (some { newMsg (some name) with type := .request, argv := name :: items.map Spec.Item.word }) := by
    unfold parseRequest newRequest
    simp only [if_neg hnq, Option.bind_eq_bind, Option.bind_some]
    rw [parseArgs_eq _ _ rfl, map_cut hnz]
    rfl
  rw [hreq] at hparse
  refine ⟨_, Qstr.lineF [] (name :: items.map Spec.Item.word),
    finish (Qstr.lineF [] (name :: items.map Spec.Item.word)) (Qstr.lineF [] (name :: items.map Spec.Item.word)).length none
      (some { newMsg (some name) with type := .request, argv := name :: items.map Spec.Item.word }),
    ?_, ?_, hseal, ?_, ?_, rfl, rfl, rfl, rfl, ?_⟩
  · unfold newRequest; rw [if_neg hnq]
  · unfold append
    rw [if_neg (by simp [newMsg]), appendLoop_items items _ rfl]
    rfl
  · unfold wire
    rw [rd_some (by simp)]
    simp
  · unfold recv
    rw [if_neg hline, List.take_of_length_le (by omega)]
    exact hparse
  · exact ⟨_, readAll_items items hok _ [name] rfl rfl⟩

/-- **C27** (violated): arguments are lost or changed, a name is taken for an interface, and the end of a
long request is cut off. -/
theorem request_roundtrip_refuted :
    let sent (args : List Arg) (name : List Byte) : Option (Option (List (List Byte))) := do
      let m ← newRequest name
      let s ← sealMsg (fun _ => 0) (append m args).2
      let d ← wire s.2
      let r ← recv (fun _ => 0) true d
      some (r.map Msg.argv)
    sent [.str (some (bytes "it's"))] (bytes "SET") = some (some [bytes "SET", bytes "its"]) ∧
    sent [.str (some []), .str (some (bytes "x"))] (bytes "SET") = some (some [bytes "SET", bytes "x"]) ∧
    sent [.str (some (bytes "x"))] (bytes "IFNAME=a") = some (some [bytes "x"]) := by
  refine ⟨?_, ?_, ?_⟩ <;> decide +kernel

/-- **C27** (violated), long requests: whatever follows the first 16383 bytes is lost. -/
theorem long_request_truncated (jk : Nat → Byte) (server : Bool) (d : List Byte) (more : List Byte)
    (h : d.length = 16383) : recv jk server (d ++ more) = recv jk server d := by
  have hd : d ≠ [] := by intro e; rw [e] at h; simp at h
  unfold recv
  rw [if_neg (by simp [hd]), if_neg hd, ← h, List.take_left, List.take_of_length_le (Nat.le_refl _)]

example : ∃ d m, (do let m ← newRequest (bytes "SET_NETWORK")
                     let s ← sealMsg (fun _ => 7) (append m [.u32 0, .i32 (-5), .str (some (bytes "my \"net\"")),
                        .dict (some (bytes "k")) (some (bytes "v=1"))]).2
                     wire s.2) = some d ∧ recv (fun _ => 9) true d = some (some m) ∧
      (readAll m [.u, .i, .s, .e]).map (·.2.2) =
        some [.uint 0, .int (-5), .str (bytes "my \"net\""), .str (bytes "v=1")] := by
  refine ⟨bytes "SET_NETWORK 0 -5 \"my \\\"net\\\"\" k=v=1",
    { type := .request, name := some (bytes "SET_NETWORK"), argv := [bytes "SET_NETWORK", bytes "0", bytes "-5",
      bytes "my \"net\"", bytes "k=v=1"], iter := 1, raw := bytes "SET_NETWORK 0 -5 \"my \\\"net\\\"\" k=v=1" ++ [0],
      rawlen := 35, isSealed := true, hasPeer := true }, ?_, ?_, ?_⟩ <;> decide +kernel

example : Spec.Quotable (bytes "a 'b") ∧ ¬ bytes "IFNAME=" <+: bytes "IFNAM" ∧ (Spec.Item.pair (bytes "k") (bytes "v")).Ok := by
  refine ⟨⟨by decide, by decide, fun _ => ⟨ch ' ', by decide, Or.inl rfl⟩⟩, by decide, by decide, by decide, by decide,
    fun h => absurd h (by decide)⟩

/-! ## C28 -/

/-- **C28**: every datagram splits into an interface and a body in exactly one way. -/
theorem datagram_splits (d : List Byte) :
    ∃ x body, Spec.Split d x body ∧ ∀ x' body', Spec.Split d x' body' → x' = x ∧ body' = body := by
  obtain ⟨x, body, h⟩ := split_total d
  refine ⟨x, body, h, fun x' body' h' => ?_⟩
  have := (ifSplit_of h').symm.trans (ifSplit_of h)
  simpa using this

/-- **C28**, events: a datagram `[IFNAME=x ]<N>NAME args` is delivered as an event with that interface, level,
name and arguments. -/
theorem event_delivered (jk : Nat → Byte) (d : List Byte) (x : Option (List Byte)) (level : Nat)
    (name : List Byte) (args : Option (List Byte)) (hl : d.length ≤ 16383)
    (hs : Spec.Split d x (Spec.eventText level name args)) (hn : Spec.Plain name) (hlev : level ≤ 2147483647) :
    ∃ m, recv jk false d = some (some m) ∧ m.type = .event ∧ m.ifname = x ∧ m.level = level ∧
      m.name = some name ∧ m.argv = name :: Qstr.Spec.tokens (args.getD []) := by
  have hd : d ≠ [] := by
    intro e
    have := split_len hs
    rw [e] at this
    simp [Spec.eventText] at this
  have hw : Spec.Plain ([ch '<'] ++ dec level ++ [ch '>'] ++ name) := by
    refine ⟨by simp, fun c hc => ?_⟩
    simp only [List.mem_append, List.mem_singleton] at hc
    rcases hc with ((rfl | hc) | rfl) | hc
    · decide
    · have hd : ∀ y : Byte, y.toNat < 48 ∨ 57 < y.toNat → c ≠ y := by
        intro y hy e
        exact dec_not hy (e ▸ hc)
      exact ⟨hd _ (Or.inl (by decide)), hd _ (Or.inl (by decide)), hd _ (Or.inl (by decide)), hd _ (Or.inl (by decide)),
        hd _ (Or.inr (by decide))⟩
    · decide
    · exact hn.2 c hc
  have htok : Qstr.Spec.tokens (Spec.eventText level name args) =
      ([ch '<'] ++ dec level ++ [ch '>'] ++ name) :: Qstr.Spec.tokens (args.getD []) :=
    words_plain_tail _ hw args
  have hp := parse_event jk hs (by simp [Spec.eventText]) (by omega)
  rw [htok] at hp
  have hlv : ([ch '<'] ++ dec level ++ [ch '>'] ++ name).takeWhile (· ≠ ch '>') = [ch '<'] ++ dec level := by
    rw [List.append_assoc]
    refine span_of _ _ ?_ (by simp)
    intro c hc
    simp only [List.mem_append, List.mem_singleton] at hc
    rcases hc with rfl | hc
    · decide
    · simp
      intro e
      exact dec_not (n := level) (Or.inr (by decide)) (e ▸ hc)
  have hdrop : ([ch '<'] ++ dec level ++ [ch '>'] ++ name).drop (([ch '<'] ++ dec level).length + 1) = name := by
    have := List.drop_left (l₁ := [ch '<'] ++ dec level ++ [ch '>']) (l₂ := name)
    rw [List.length_append (bs := [ch '>'])] at this
    exact this
  have hev : parseEvent (([ch '<'] ++ dec level ++ [ch '>'] ++ name) :: Qstr.Spec.tokens (args.getD [])) =
      some (some { newMsg (some name) with
        type := .event, level := level, argv := name :: Qstr.Spec.tokens (args.getD []) }) := by
    unfold parseEvent
    simp only [hlv, hdrop]
    rw [if_neg (by
      rintro (h | h)
      · exact h (by simp)
      · exact hn.1 h)]
    rw [show ([ch '<'] ++ dec level).drop 1 = dec level from rfl, atoi_dec level hlev]
    simp only [Option.bind_eq_bind, Option.bind_some]
    have hmod : ((level : Int) % (W32 : Int)).toNat = level := by
      rw [show (W32 : Int) = 4294967296 from rfl]; omega
    rw [hmod]
    unfold newEvent
    rw [if_neg hn.1]
    simp only [Option.bind_some]
    rw [parseArgs_eq _ _ rfl, cut_tokens]
    rfl
  rw [hev] at hp
  refine ⟨finish d (Spec.eventText level name args).length x (some { newMsg (some name) with
      type := .event, level := level, argv := name :: Qstr.Spec.tokens (args.getD []) }), ?_, rfl, rfl, rfl, rfl, rfl⟩
  unfold recv
  rw [if_neg hd, List.take_of_length_le hl]
  exact hp

/-- **C28**, replies: a datagram whose body does not start with `<` is delivered as a reply with that
interface, and its arguments are the non-empty lines of the body (as C strings). -/
theorem reply_delivered (jk : Nat → Byte) (d : List Byte) (x : Option (List Byte)) (body : List Byte)
    (hd : d ≠ []) (hl : d.length ≤ 16383) (hs : Spec.Split d x body) (hb : body.head? ≠ some (ch '<')) :
    ∃ m, recv jk false d = some (some m) ∧ m.type = .reply ∧ m.ifname = x ∧ m.name = none ∧
      m.argv = (Str.Spec.tokens (· = 10) body).map (·.takeWhile (· ≠ 0)) := by
  refine ⟨finish d body.length x (some { newReply with argv := (Str.Spec.tokens (· = 10) body).map cut }),
    ?_, rfl, rfl, rfl, rfl⟩
  unfold recv
  rw [if_neg hd, List.take_of_length_le hl]
  exact parse_reply jk hs hb (by omega)

/-- **C28**, the rest: whatever starts with `<` is never taken for a reply.  It is an event only if its first
word is `<…>name` with a name, and otherwise an unknown message that has an empty name and no
arguments.  The outcome is undefined only for a level that does not fit an `int`. -/
theorem angle_never_reply (jk : Nat → Byte) (d : List Byte) (x : Option (List Byte)) (s : List Byte)
    (hl : d.length ≤ 16383) (hs : Spec.Split d x (ch '<' :: s)) :
    ∃ w args, Qstr.Spec.tokens (ch '<' :: s) = (ch '<' :: w) :: args ∧
      ((∃ lv name, w = lv ++ [ch '>'] ++ name ∧ ch '>' ∉ lv ∧ name ≠ [] ∧
          (atoi lv = none ∧ recv jk false d = none ∨
           ∃ v m, atoi lv = some v ∧ recv jk false d = some (some m) ∧ m.type = .event ∧ m.ifname = x ∧
            m.name = some name ∧ m.argv = name :: args ∧ (m.level : Int) = v % 4294967296)) ∨
       ((∀ lv name, w = lv ++ [ch '>'] ++ name → ch '>' ∉ lv → name = []) ∧
          ∃ m, recv jk false d = some (some m) ∧ m.type = .unknown ∧ m.ifname = x ∧ m.name = some [] ∧
            m.argv = [[]])) := by
  obtain ⟨w, args, htok⟩ := tokens_lt s
  refine ⟨w, args, htok, ?_⟩
  have hd : d ≠ [] := by
    intro e
    have := split_len hs
    rw [e] at this
    simp at this
  have hrecv : recv jk false d =
      (parseEvent ((ch '<' :: w) :: args)).map (fun m => some (finish d (ch '<' :: s).length x m)) := by
    unfold recv
    rw [if_neg hd, List.take_of_length_le hl, parse_event jk hs rfl (by omega), htok]
  have hargs : args.map cut = args := by
    refine map_cut (fun t ht => tokens_nz (s := ch '<' :: s) ?_)
    rw [htok]; simp [ht]
  have hgt : ch '<' ≠ ch '>' := by decide
  by_cases hmem : ch '>' ∈ w
  · obtain ⟨lv, name, rfl, hlv⟩ : ∃ lv name, w = lv ++ [ch '>'] ++ name ∧ ch '>' ∉ lv := by
      have h := List.takeWhile_append_dropWhile (p := fun c : Byte => decide (c ≠ ch '>')) (l := w)
      have hnot : ch '>' ∉ List.takeWhile (fun c : Byte => decide (c ≠ ch '>')) w := by
        intro hm
        have := List.all_takeWhile (l := w) (p := fun c : Byte => decide (c ≠ ch '>'))
        rw [List.all_eq_true] at this
        simpa using this _ hm
      cases hdw : List.dropWhile (fun c : Byte => decide (c ≠ ch '>')) w with
      | nil => rw [hdw, List.append_nil] at h; rw [h] at hnot; exact absurd hmem hnot
      | cons c t =>
        have hc := List.head?_dropWhile_not (fun c : Byte => decide (c ≠ ch '>')) w
        rw [hdw] at hc
        simp only [List.head?_cons, decide_eq_false_iff_not, Classical.not_not] at hc
        subst hc
        rw [hdw] at h
        generalize List.takeWhile (fun c : Byte => decide (c ≠ ch '>')) w = lv at *
        exact ⟨lv, t, by rw [← h]; simp, hnot⟩
    have htw : (ch '<' :: (lv ++ [ch '>'] ++ name)).takeWhile (· ≠ ch '>') = ch '<' :: lv := by
      have := span_of (p := fun c : Byte => decide (c ≠ ch '>')) (ch '<' :: lv) (ch '>' :: name) (by
        intro c hc
        rcases List.mem_cons.mp hc with rfl | hc
        · simp [hgt]
        · simp; intro e; exact hlv (e ▸ hc)) (by simp)
      simpa using this
    have hdr : (ch '<' :: (lv ++ [ch '>'] ++ name)).drop ((ch '<' :: lv).length + 1) = name := by
      have := List.drop_left (l₁ := ch '<' :: (lv ++ [ch '>'])) (l₂ := name)
      simpa using this
    have huniq : ∀ lv' name', lv ++ [ch '>'] ++ name = lv' ++ [ch '>'] ++ name' → ch '>' ∉ lv' → name' = name := by
      intro lv' name' he hlv'
      have h1 : (lv ++ [ch '>'] ++ name).takeWhile (· ≠ ch '>') = lv := by
        rw [List.append_assoc]
        exact span_of lv _ (fun c hc => by simp; intro e; exact hlv (e ▸ hc)) (by simp)
      have h2 : (lv' ++ [ch '>'] ++ name').takeWhile (· ≠ ch '>') = lv' := by
        rw [List.append_assoc]
        exact span_of lv' _ (fun c hc => by simp; intro e; exact hlv' (e ▸ hc)) (by simp)
      rw [he, h2] at h1
      subst h1
      simpa using he.symm
    by_cases hname : name = []
    · refine Or.inr ⟨fun lv' name' he hlv' => (huniq lv' name' he hlv').trans hname, ?_⟩
      refine ⟨finish d (ch '<' :: s).length x none, ?_, rfl, rfl, rfl, rfl⟩
      rw [hrecv]
      unfold parseEvent
      simp only [htw, hdr]
      rw [if_pos (Or.inr hname)]
      rfl
    · refine Or.inl ⟨lv, name, rfl, hlv, hname, ?_⟩
      rw [hrecv]
      unfold parseEvent
      simp only [htw, hdr]
      rw [if_neg (by
        rintro (h | h)
        · exact h (by simp)
        · exact hname h)]
      rw [show (ch '<' :: lv).drop 1 = lv from rfl]
      cases hat : atoi lv with
      | none => exact Or.inl ⟨rfl, rfl⟩
      | some v =>
        refine Or.inr ⟨v, finish d (ch '<' :: s).length x (some { newMsg (some name) with
          type := .event, level := (v % (W32 : Int)).toNat, argv := name :: args }), rfl, ?_, rfl, rfl, rfl, rfl, ?_⟩
        · simp only [Option.bind_eq_bind, Option.bind_some]
          unfold newEvent
          rw [if_neg hname]
          simp only [Option.bind_some]
          rw [parseArgs_eq _ _ rfl, hargs]
          rfl
        · show (((v % (W32 : Int)).toNat : Nat) : Int) = v % 4294967296
          rw [show (W32 : Int) = 4294967296 from rfl]
          omega
  · refine Or.inr ⟨fun lv name he _ => absurd (by rw [he]; simp) hmem, ?_⟩
    refine ⟨finish d (ch '<' :: s).length x none, ?_, rfl, rfl, rfl, rfl⟩
    rw [hrecv]
    unfold parseEvent
    simp only
    rw [if_pos (Or.inl (by
      intro h
      rcases List.mem_cons.mp h with h | h
      · exact hgt h.symm
      · exact hmem h))]
    rfl

/-- **C28**, on the other side: a server makes a request of every datagram whose body has a first word, and
the name and arguments are its words. -/
theorem request_delivered (jk : Nat → Byte) (d : List Byte) (x : Option (List Byte)) (body : List Byte)
    (hd : d ≠ []) (hl : d.length ≤ 16383) (hs : Spec.Split d x body) :
    ∃ m, recv jk true d = some (some m) ∧ m.ifname = x ∧
      match Qstr.Spec.tokens body with
      | [] => m.type = .unknown ∧ m.argv = [[]]
      | [] :: _ => m.type = .unknown ∧ m.argv = [[]]
      | name :: args => m.type = .request ∧ m.name = some name ∧ m.argv = name :: args := by
  have hrecv : recv jk true d =
      (parseRequest (Qstr.Spec.tokens body)).map (fun m => some (finish d body.length x m)) := by
    unfold recv
    rw [if_neg hd, List.take_of_length_le hl, parse_server jk hs (by omega)]
  have hnz : ∀ t ∈ Qstr.Spec.tokens body, (0 : Byte) ∉ t := fun t ht => tokens_nz ht
  rw [hrecv]
  cases htok : Qstr.Spec.tokens body with
  | nil => exact ⟨_, rfl, rfl, rfl, rfl⟩
  | cons t ts =>
    cases t with
    | nil => exact ⟨_, rfl, rfl, rfl, rfl⟩
    | cons c t =>
      refine ⟨finish d body.length x (some { newMsg (some (c :: t)) with
          type := .request, argv := (c :: t) :: ts }), ?_, rfl, rfl, rfl, rfl⟩
      have hne : ¬ (c :: t = []) := by simp
      unfold parseRequest newRequest
      simp only [if_neg hne, Option.bind_eq_bind, Option.bind_some]
      rw [parseArgs_eq _ _ rfl, map_cut (fun t ht => hnz t (by rw [htok]; simp [ht]))]
      rfl

/-- **C28** (violated): a level that does not fit an `int` makes the conversion undefined. -/
theorem event_level_undefined : recv (fun _ => 0) false (bytes "<3000000000>X") = none := by decide +kernel

example : ∃ m, recv (fun _ => 3) false (bytes "IFNAME=p2p-wlan0-0 <3>P2P-DEVICE-FOUND 02:00 name='My TV' x=\\\"") =
      some (some m) ∧ m.type = .event ∧ m.level = 3 ∧ m.ifname = some (bytes "p2p-wlan0-0") ∧
      m.argv = [bytes "P2P-DEVICE-FOUND", bytes "02:00", bytes "name=My TV", bytes "x=\""] := by
  refine ⟨{
    type := .event, level := 3, ifname := some (bytes "p2p-wlan0-0"), name := some (bytes "P2P-DEVICE-FOUND"),
    iter := 1, argv := [bytes "P2P-DEVICE-FOUND", bytes "02:00", bytes "name=My TV", bytes "x=\""],
    raw := bytes "IFNAME=p2p-wlan0-0 <3>P2P-DEVICE-FOUND 02:00 name='My TV' x=\\\"" ++ [0], rawlen := 43,
    isSealed := true, hasPeer := true }, ?_, rfl, rfl, rfl, rfl⟩
  decide +kernel

example : Spec.Split (bytes "IFNAME=wlan0 <2>SCAN a b") (some (bytes "wlan0")) (Spec.eventText 2 (bytes "SCAN") (some (bytes "a b"))) ∧
    Spec.Plain (bytes "SCAN") := by
  refine ⟨?_, by decide, by decide⟩
  have := Spec.Split.iface (bytes "wlan0") (bytes "<2>SCAN a b") (by decide) (by decide)
  exact this

example : ∃ m, recv (fun _ => 3) false (bytes "bssid=02:00\nfreq=2412\n\nssid=x y\n") = some (some m) ∧ m.type = .reply ∧
      m.argv = [bytes "bssid=02:00", bytes "freq=2412", bytes "ssid=x y"] ∧
      dictRead m (bytes "freq") .u = some (0, some (.uint 2412)) ∧
      dictRead m (bytes "ssid") .s = some (0, some (.str (bytes "x y"))) ∧
      dictRead m (bytes "req") .s = some (-ENOENT, none) := by
  refine ⟨{
    type := .reply, argv := [bytes "bssid=02:00", bytes "freq=2412", bytes "ssid=x y"],
    raw := bytes "bssid=02:00\nfreq=2412\n\nssid=x y\n" ++ [0], rawlen := 32, isSealed := true, hasPeer := true },
    ?_, rfl, rfl, ?_, ?_, ?_⟩ <;> decide +kernel

/-! ## C29 -/

/-- **C29**, strings: a lookup returns the value of the first entry that is `key=value`, whatever has been
read from the message before, and ENOENT if there is none. -/
theorem dict_lookup (m : Msg) (key : List Byte) (iter : Nat) :
    ∃ r, Spec.Lookup key (m.argv.drop (if m.name.isSome then 1 else 0)) r ∧
      dictRead { m with iter := iter } key .s =
        match r with
        | some v => some (0, some (.str v))
        | none => some (-ENOENT, none) := by
  unfold dictRead
  simp only
  generalize m.argv.drop (if m.name.isSome then 1 else 0) = l
  induction l with
  | nil => exact ⟨none, .nil, rfl⟩
  | cons e t ih =>
    obtain ⟨r, hr, ht⟩ := ih
    unfold dictLoop
    by_cases he : ch '=' ∈ e
    · rw [if_neg (by simp [he])]
      simp only
      have h := List.takeWhile_append_dropWhile (p := fun c : Byte => decide (c ≠ ch '=')) (l := e)
      have hnot : ch '=' ∉ List.takeWhile (fun c : Byte => decide (c ≠ ch '=')) e := by
        intro hm
        have := List.all_takeWhile (l := e) (p := fun c : Byte => decide (c ≠ ch '='))
        rw [List.all_eq_true] at this
        simpa using this _ hm
      have hk : ∀ k : List Byte, ch '=' ∉ k → ∀ v, (k ++ [ch '='] ++ v).takeWhile (fun c : Byte => decide (c ≠ ch '=')) = k := by
        intro k hk v
        rw [List.append_assoc]
        exact span_of k _ (fun c hc => by simp; intro e; exact hk (e ▸ hc)) (by simp)
      generalize hke : List.takeWhile (fun c : Byte => decide (c ≠ ch '=')) e = k at *
      cases hdw : List.dropWhile (fun c : Byte => decide (c ≠ ch '=')) e with
      | nil => rw [hdw, List.append_nil] at h; rw [h] at hnot; exact absurd he hnot
      | cons c v =>
        have hc := List.head?_dropWhile_not (fun c : Byte => decide (c ≠ ch '=')) e
        rw [hdw] at hc
        simp only [List.head?_cons, decide_eq_false_iff_not, Classical.not_not] at hc
        subst hc
        rw [hdw] at h
        have hev : e = k ++ [ch '='] ++ v := by rw [← h]; simp
        have htk : e.take k.length = k := by rw [hev, List.append_assoc]; exact List.take_left
        have hdk : e.drop (k.length + 1) = v := by
          rw [hev]
          have := List.drop_left (l₁ := k ++ [ch '=']) (l₂ := v)
          rw [List.length_append (bs := [ch '='])] at this
          exact this
        rw [htk, hdk]
        by_cases hkey : key = k
        · subst hkey
          rw [if_neg (by
            rintro (h | h)
            · rw [List.take_length] at h; exact h rfl
            · exact h rfl)]
          refine ⟨some v, ?_, ?_⟩
          · rw [hev]; exact .hit v t hnot
          · simp [convert]
        · rw [if_pos (by
            by_cases hlen : key.length = k.length
            · left
              rw [← hlen, List.take_length]
              exact fun e => hkey e.symm
            · exact Or.inr hlen)]
          refine ⟨r, .miss e t r ?_ hr, ht⟩
          intro v' hk' he'
          have := hk key hk' v'
          rw [← he', hke] at this
          exact hkey this.symm
    · rw [if_pos he]
      refine ⟨r, .miss e t r ?_ hr, ht⟩
      intro v hk he'
      exact he (by rw [he']; simp)

/-- **C29**: what a key selects is unique. -/
theorem dict_lookup_unique (key : List Byte) (l : List (List Byte)) (r r' : Option (List Byte))
    (h : Spec.Lookup key l r) (h' : Spec.Lookup key l r') : r = r' := by
  induction h with
  | nil => cases h'; rfl
  | hit v rest hk =>
    generalize hl : (key ++ [ch '='] ++ v) :: rest = l at h'
    cases h' with
    | nil => cases hl
    | hit v' rest' hk' =>
      simp only [List.cons.injEq] at hl
      have := hl.1
      simp at this
      rw [this]
    | miss e rest' r hm t =>
      simp only [List.cons.injEq] at hl
      exact absurd hl.1.symm (hm v hk)
  | miss e rest r hm t ih =>
    cases h' with
    | hit v' rest' hk' => exact absurd rfl (hm v' hk')
    | miss e rest' r hm' t' => exact ih t'

/-- **C29**, numbers: the value found is converted; what is no number is -EINVAL. -/
theorem dict_lookup_number (m : Msg) (key : List Byte) :
    (∃ v, dictRead m key .s = some (0, some (.str v)) ∧
      dictRead m key .i = (match sscanfD v with
        | none => none | some none => some (-EINVAL, none) | some (some i) => some (0, some (.int i))) ∧
      dictRead m key .u = (match sscanfU v with
        | none => none | some none => some (-EINVAL, none) | some (some i) => some (0, some (.uint i)))) ∨
    (dictRead m key .s = some (-ENOENT, none) ∧ dictRead m key .i = some (-ENOENT, none) ∧
      dictRead m key .u = some (-ENOENT, none)) := by
  unfold dictRead
  generalize m.argv.drop (if m.name.isSome then 1 else 0) = l
  induction l with
  | nil => exact Or.inr ⟨rfl, rfl, rfl⟩
  | cons e t ih =>
    unfold dictLoop
    by_cases he : ch '=' ∉ e
    · simp only [if_pos he]; exact ih
    · simp only [if_neg he]
      split
      · exact ih
      · refine Or.inl ⟨_, rfl, ?_, ?_⟩
        · simp only [reduceCtorEq, if_false, convert, Option.bind_eq_bind]
          rcases sscanfD _ with _ | _ | i <;> rfl
        · simp only [reduceCtorEq, if_false, convert, Option.bind_eq_bind]
          rcases sscanfU _ with _ | _ | i <;> rfl

/-- **C29**, positions: `argv_read` at a position returns the argument at that position (not counting the
name), independent of the read cursor, and -EINVAL beyond the end – including the largest position, whose
increment wraps. -/
theorem argv_position (m : Msg) (pos iter : Nat) (hpos : pos < W32)
    (hcnt : m.argv.length < W32) :
    argvRead { m with iter := iter } pos .s =
      match (m.argv.drop (if m.name.isSome then 1 else 0))[pos]? with
      | some v => some (0, some (.str v))
      | none => some (-EINVAL, none) := by
  unfold argvRead
  by_cases hn : m.name.isSome
  · simp only [hn, if_true, true_and, List.getElem?_drop]
    by_cases hw : pos + 1 = W32
    · rw [hw, Nat.mod_self, if_pos rfl]
      rw [show 1 + pos = W32 from by omega, List.getElem?_eq_none (by omega)]
    · rw [Nat.mod_eq_of_lt (by omega), if_neg (by omega), Nat.add_comm pos 1]
      cases m.argv[1 + pos]? with
      | none => rfl
      | some v => simp [convert]
  · simp only [hn, Bool.false_eq_true, if_false, false_and, List.drop_zero]
    cases m.argv[pos]? with
    | none => rfl
    | some v => simp [convert]

example : Spec.Lookup (bytes "k") [bytes "kk=1", bytes "k", bytes "k=2=3", bytes "k=4"] (some (bytes "2=3")) := by
  have h : ∀ e : List Byte, ¬ bytes "k=" <+: e → ∀ v, ch '=' ∉ bytes "k" → e ≠ bytes "k" ++ [ch '='] ++ v := by
    rintro e he v - rfl
    exact he (List.prefix_append _ _)
  exact .miss _ _ _ (h _ (by decide)) (.miss _ _ _ (h _ (by decide)) (.hit (bytes "2=3") _ (by decide)))
example : argvRead { newMsg (some (bytes "A")) with argv := [bytes "A", bytes "b"] } 4294967295 .s = some (-EINVAL, none) ∧
    argvRead { newMsg (some (bytes "A")) with argv := [bytes "A", bytes "b"] } 0 .s = some (0, some (.str (bytes "b"))) := by
  decide +kernel

/-! ## C67 -/

/-- **C67** (violated): an event is sent without its last bytes – as many as the level has taken – and a
reply of two arguments arrives as one. -/
theorem event_truncated_refuted :
    (do let m ← newEvent (bytes "SCAN") 3
        let s ← sealMsg (fun _ => 0) (append m [.str (some (bytes "DONE"))]).2
        wire s.2) = some (bytes "<3>SCAN D") ∧
    (do let s ← sealMsg (fun _ => 0) (append newReply [.str (some (bytes "a")), .str (some (bytes "b"))]).2
        let d ← wire s.2
        let r ← recv (fun _ => 0) false d
        some (r.map Msg.argv)) = some (some [bytes "a b"]) := by
  constructor <;> decide +kernel

/-- **C67**, how much of an event is lost: exactly the last `2 + digits` bytes, whatever the event. -/
theorem event_truncated (jk : Nat → Byte) (name : List Byte) (level : Nat) (items : List Spec.Item)
    (hname : Spec.Quotable name) (hok : ∀ a ∈ items, a.Ok)
    (hsz : ((name :: items.map Spec.Item.word).map (fun t => t.length * 2 + 4)).sum ≤ 16383)
    (hlev : level < W32) :
    ∃ m0 m1 m2 full lost, newEvent name level = some m0 ∧ append m0 (items.map Spec.Item.arg) = (0, m1) ∧
      sealMsg jk m1 = some (0, m2) ∧ m2.raw = full ++ lost ++ [0] ∧ wire m2 = some full ∧
      lost.length = (dec level).length + 2 := by
  have hnq : name ≠ [] := hname.1
  have hroom : Qstr.room (name :: items.map Spec.Item.word) ≤ 16383 := hsz
  have hgood : ∀ t ∈ name :: items.map Spec.Item.word, Qstr.Good t := by
    intro t ht
    rcases List.mem_cons.mp ht with rfl | ht
    · exact good_of hname
    · obtain ⟨a, ha, rfl⟩ := List.mem_map.mp ht
      exact good_of (hok a ha).quotable
  have hnz : (0 : Byte) ∉ Qstr.lineF [] (name :: items.map Spec.Item.word) :=
    Qstr.lineF_nz _ (fun t ht => (hgood t ht).2.1) [] (by simp)
  have hll := line_len (name :: items.map Spec.Item.word) []
  simp only [List.length_nil, Nat.zero_add] at hll
  have hdl : (dec level).length ≤ level + 1 := by
    have : ∀ n, (dec n).length ≤ n + 1 := by
      intro n
      induction n using Nat.strongRecOn with
      | _ n ih =>
        rw [dec_eq]
        split
        · simp
        · have := ih (n / 10) (by omega)
          simp only [List.length_append, List.length_cons, List.length_nil]
          omega
    exact this level
  rcases Qstr.join_ex (name :: items.map Spec.Item.word) (some jk) (fun _ => some jk) (by omega) with ⟨-, h⟩ | ⟨rest, e⟩
  · exfalso
    rcases h with h | ⟨k, h⟩ | h
    · simp at h
    · simp at h
    · omega
  · generalize hline : Qstr.lineF [] (name :: items.map Spec.Item.word) = line at *
    have hW : (W64 : Nat) = 18446744073709551616 := rfl
    have hW32 : (W32 : Nat) = 4294967296 := rfl
    have hcat := (Str.strcat_exact (some ([ch '<'] ++ dec level ++ [ch '>'])) (some line) jk (by
      simp only [Option.getD_some, List.length_append, List.length_cons, List.length_nil]
      omega)).1
    simp only [Option.getD_some] at hcat
    refine ⟨{ newMsg (some name) with type := .event, level := level },
      { newMsg (some name) with type := .event, level := level, argv := name :: items.map Spec.Item.word },
      { newMsg (some name) with
        type := .event, level := level, argv := name :: items.map Spec.Item.word,
        rawlen := line.length, raw := [ch '<'] ++ dec level ++ [ch '>'] ++ line ++ [0], isSealed := true },
      ([ch '<'] ++ dec level ++ [ch '>'] ++ line).take line.length,
      ([ch '<'] ++ dec level ++ [ch '>'] ++ line).drop line.length, ?_, ?_, ?_, ?_, ?_, ?_⟩
    · unfold newEvent; rw [if_neg hnq]
    · unfold append
      rw [if_neg (by simp [newMsg]), appendLoop_items items _ rfl]
      rfl
    · unfold sealMsg
      rw [if_neg (by simp [newMsg])]
      simp only [e, Option.bind_eq_bind, Option.bind_some, if_true, Qstr.cstr_prefix rfl hnz, hcat]
    · rw [List.take_append_drop]
    · unfold wire
      rw [rd_some (by simp only [List.length_append]; omega)]
      simp only [List.drop_zero]
      rw [List.take_append_of_le_length (by simp only [List.length_append]; omega)]
    · simp only [List.length_drop, List.length_append, List.length_cons, List.length_nil]
      omega

/-- **C67**, what holds: a reply of one plain argument arrives as that reply. -/
theorem reply_roundtrip_partial (jk jk' : Nat → Byte) (t : List Byte) (ht : Spec.Plain t)
    (hw : ∀ c ∈ t, c ≠ 9 ∧ c ≠ 10 ∧ c ≠ 11) (hlt : t.head? ≠ some (ch '<')) (hif : ¬ bytes "IFNAME=" <+: t)
    (hsz : t.length ≤ 8000) :
    ∃ m1 m2 m, append newReply [.str (some t)] = (0, m1) ∧ sealMsg jk m1 = some (0, m2) ∧ wire m2 = some t ∧
      recv jk' false t = some (some m) ∧ m.type = .reply ∧ m.argv = [t] := by
  have hnq : Qstr.needQuote t = false := by
    unfold Qstr.needQuote
    rw [List.any_eq_false]
    intro c hc
    have h1 := ht.2 c hc
    have h2 := hw c hc
    simp [h1.2.1, h2.1, h2.2.1, h2.2.2]
  have henc : Qstr.enc t = t := by
    unfold Qstr.enc
    rw [hnq]
    simp only [Bool.false_eq_true, if_false]
    unfold Qstr.body
    have : ∀ l : List Byte, (∀ c ∈ l, c ≠ ch '\\' ∧ c ≠ ch '"') → l.flatMap Qstr.encC = l := by
      intro l
      induction l with
      | nil => intro _; rfl
      | cons c l ih =>
        intro h
        rw [List.flatMap_cons, ih (fun x hx => h x (by simp [hx]))]
        unfold Qstr.encC
        rw [if_neg (by
          rintro (e | e)
          · exact (h c (by simp)).1 e
          · exact (h c (by simp)).2 e)]
        rfl
    exact this t (fun c hc => ⟨(ht.2 c hc).2.2.2.2, (ht.2 c hc).2.2.1⟩)
  have hline : Qstr.lineF [] [t] = t := by simp [Qstr.lineF, henc]
  obtain ⟨rest, hseal⟩ := seal_line jk { newReply with argv := [t] } rfl (by simp [newReply]) (by
    simp [Qstr.room]; omega)
  simp only [hline] at hseal
  have hlines : Str.Spec.tokens (fun c : Byte => decide (c = 10)) t = [t] := by
    have hp : ∀ l : List Byte, (∀ c ∈ l, c ≠ 10) → Str.Spec.pieces (fun c : Byte => decide (c = 10)) l = [l] := by
      intro l
      induction l with
      | nil => intro _; rfl
      | cons c l ih =>
        intro h
        rw [Str.Spec.pieces, if_neg (by simp [h c (by simp)]), ih (fun x hx => h x (by simp [hx]))]
    rw [Str.Spec.tokens, hp t (fun c hc => (hw c hc).2.1)]
    simp [ht.1]
  have hz : (0 : Byte) ∉ t := fun h => (ht.2 0 h).1 rfl
  obtain ⟨m, hr, hty, -, -, hargv⟩ := reply_delivered jk' t none t ht.1 (by omega) (.plain t hif) hlt
  refine ⟨{ newReply with argv := [t] }, _, m, ?_, hseal, ?_, hr, hty, ?_⟩
  · rfl
  · unfold wire
    rw [rd_some (by simp)]
    simp
  · rw [hargv, hlines]
    have := cut_id hz
    unfold cut at this
    simp only [List.map_cons, List.map_nil, this]

example : Spec.Plain (bytes "PONG") := ⟨by decide, by decide⟩

end Verif.Wpas

namespace Verif.Wpas
open Verif.C

/-! ## C69 -/

/-- **C69**: whatever was read and skipped of a received message, the next string read is the argument after
those consumed since the last rewind, an argument that does not have the form asked for is not consumed, and
nothing but the position changes. -/
theorem reading_position (jk : Nat → Byte) (server : Bool) (d : List Byte) (m m' : Msg) (us : List Spec.Use)
    (h : recv jk server d = some (some m)) (hu : Spec.use m us = some m') :
    Spec.args m' = Spec.args m ∧ { m' with iter := m.iter } = m ∧
      readBasic m' .s = some (match (Spec.args m)[Spec.cursor (Spec.args m) 0 us]? with
        | some a => (0, { m' with iter := m'.iter + 1 }, some (.str a))
        | none => (-EINVAL, m', none)) := by
  obtain ⟨hi, -⟩ := recv_start h
  have hm' := use_cursor us m 0 hi m' hu
  have hb : base m' = base m := by rw [hm']; rfl
  have ha : Spec.args m' = Spec.args m := by rw [hm']; rfl
  refine ⟨ha, by rw [hm'], ?_⟩
  have hget : m'.argv[m'.iter]? = (Spec.args m)[Spec.cursor (Spec.args m) 0 us]? := by
    rw [args_get, hm']
  unfold readBasic
  rw [hget]
  cases (Spec.args m)[Spec.cursor (Spec.args m) 0 us]? <;> rfl

/-- **C69**: rewinding makes a received message as it was when it was received. -/
theorem rewind_restarts (jk : Nat → Byte) (server : Bool) (d : List Byte) (m m' : Msg) (us : List Spec.Use)
    (h : recv jk server d = some (some m)) (hu : Spec.use m us = some m') : rewind m' = m := by
  obtain ⟨hi, -⟩ := recv_start h
  have hm' := use_cursor us m 0 hi m' hu
  rw [hm']
  show { m with iter := base m } = m
  rw [← hi]

/-- **C69**: every received message can be answered: an empty, open reply to its sender is made. -/
theorem reply_for_received (jk : Nat → Byte) (server : Bool) (d : List Byte) (m : Msg)
    (h : recv jk server d = some (some m)) :
    ∃ r, newReplyFor m = some r ∧ r.type = .reply ∧ r.hasPeer = true ∧ r.isSealed = false ∧ Spec.args r = [] := by
  refine ⟨{ newReply with hasPeer := true }, ?_, rfl, rfl, rfl, rfl⟩
  unfold newReplyFor
  rw [if_pos (recv_start h).2]

/-- A reply of three lines: a number, a text, a pair. -/
example : ((recv (fun _ => 0) false (bytes "7\nx y\nk=v")).bind (fun o => o.bind (fun m =>
    (Spec.use m [.read .i, .skip .i, .skip .s]).map (fun m' => (m'.iter, decide (rewind m' = m),
      (readBasic m' .e).map (·.2.2)))))) = some (2, true, some (some (.str (bytes "v")))) := by decide +kernel

end Verif.Wpas
