import Verif.Spec.Settings
/-! # Lemmas for the settings of the programs -/
namespace Verif.Settings
open Verif.C Spec

theorem last_cons {α β : Type} (f : α → Option β) (a : α) (t : List α) : last f (a :: t) = (last f t).or (f a) := by
  unfold last
  rw [List.filterMap_cons]
  cases h : f a with
  | none => simp
  | some b => simp only [List.getLast?_cons]; cases (t.filterMap f).getLast? <;> rfl

theorem pick {α β γ : Type} (f : α → Option β) (g : β → γ) (a : α) (t : List α) (d : γ) :
    ((last f (a :: t)).map g).getD d = ((last f t).map g).getD (((f a).map g).getD d) := by
  rw [last_cons]
  cases last f t <;> rfl

theorem pickO {α β : Type} (f : α → Option β) (a : α) (t : List α) (d : Option β) :
    (last f (a :: t)).or d = (last f t).or ((f a).or d) := by
  rw [last_cons]
  cases last f t <;> rfl

/-- What the options make of the settings. -/
structure WChosen (args : List WArg) (s r : WSet) : Prop where
  logSev : r.logSev = ((last (WArg.text "log-level") args).map Log.parseArg).getD s.logSev
  wpaSev : r.wpaSev = ((last (WArg.text "wpa-loglevel") args).map Log.parseArg).getD s.wpaSev
  iface : r.iface = (last (WArg.text "interface") args).or s.iface
  methods : r.methods = (last (WArg.text "config-methods") args).or s.methods
  driver : r.driver = (last (WArg.text "driver-param") args).or s.driver
  ipBinary : r.ipBinary = (last (WArg.text "ip-binary") args).or s.ipBinary
  intent : r.intent = ((last (WArg.text "go-intent") args).map (fun v => Log.toUnsigned ((atoi v).getD 0))).getD s.intent
  fits : ∀ v, .intent v ∈ args → (atoi v).isSome = true
  syslog : r.syslog = true ↔ .wpaSyslog ∈ args ∨ s.syslog = true
  useDev : r.useDev = true ↔ .useDev ∈ args ∨ s.useDev = true
  lazy : r.lazy = true ↔ .lazyManaged ∈ args ∨ s.lazy = true
  time : r.time = true ↔ .logTime ∈ args ∨ s.time = true
  dateTime : r.dateTime = true ↔ .logDateTime ∈ args ∨ s.dateTime = true

theorem wArgs_ok : ∀ (args : List WArg) (s r : WSet), wArgs args s = some (.ok r) → WChosen args s r
  | [], s, r, h => by
    simp only [wArgs, Option.some.injEq, Parsed.ok.injEq] at h
    subst h
    exact ⟨rfl, rfl, rfl, rfl, rfl, rfl, rfl, (by intro v h; cases h), (by simp), (by simp), (by simp), (by simp), (by simp)⟩
  | a :: t, s, r, h => by
    have key : ∀ s', wArgs t s' = some (.ok r) → 
        s'.logSev = ((WArg.text "log-level" a).map Log.parseArg).getD s.logSev →
        s'.wpaSev = ((WArg.text "wpa-loglevel" a).map Log.parseArg).getD s.wpaSev →
        s'.iface = (WArg.text "interface" a).or s.iface →
        s'.methods = (WArg.text "config-methods" a).or s.methods →
        s'.driver = (WArg.text "driver-param" a).or s.driver →
        s'.ipBinary = (WArg.text "ip-binary" a).or s.ipBinary →
        s'.intent = ((WArg.text "go-intent" a).map (fun v => Log.toUnsigned ((atoi v).getD 0))).getD s.intent →
        (∀ v, .intent v = a → (atoi v).isSome = true) →
        (s'.syslog = true ↔ .wpaSyslog = a ∨ s.syslog = true) →
        (s'.useDev = true ↔ .useDev = a ∨ s.useDev = true) →
        (s'.lazy = true ↔ .lazyManaged = a ∨ s.lazy = true) →
        (s'.time = true ↔ .logTime = a ∨ s.time = true) →
        (s'.dateTime = true ↔ .logDateTime = a ∨ s.dateTime = true) → WChosen (a :: t) s r := by
      intro s' h' e1 e2 e3 e4 e5 e6 e7 e8 e9 e10 e11 e12 e13
      have ih := wArgs_ok t s' r h'
      refine ⟨?_, ?_, ?_, ?_, ?_, ?_, ?_, ?_, ?_, ?_, ?_, ?_, ?_⟩
      · rw [pick, ← e1]; exact ih.logSev
      · rw [pick, ← e2]; exact ih.wpaSev
      · rw [pickO, ← e3]; exact ih.iface
      · rw [pickO, ← e4]; exact ih.methods
      · rw [pickO, ← e5]; exact ih.driver
      · rw [pickO, ← e6]; exact ih.ipBinary
      · rw [pick, ← e7]; exact ih.intent
      · intro v hv
        rcases List.mem_cons.mp hv with hv | hv
        · exact e8 v hv
        · exact ih.fits v hv
      · rw [ih.syslog, e9, List.mem_cons, or_left_comm, or_assoc]
      · rw [ih.useDev, e10, List.mem_cons, or_left_comm, or_assoc]
      · rw [ih.lazy, e11, List.mem_cons, or_left_comm, or_assoc]
      · rw [ih.time, e12, List.mem_cons, or_left_comm, or_assoc]
      · rw [ih.dateTime, e13, List.mem_cons, or_left_comm, or_assoc]
    cases a
    case intent v =>
      rw [wArgs] at h
      cases hv : atoi v with
      | none => simp [hv] at h
      | some n =>
        simp only [hv] at h
        exact key _ h rfl rfl rfl rfl rfl rfl (by show _ = Log.toUnsigned ((atoi v).getD 0); rw [hv]; rfl) (by intro w e; cases e; rw [hv]; rfl)
          (by simp) (by simp) (by simp) (by simp) (by simp)
    all_goals
      rw [wArgs] at h
      first
      | exact absurd h (by simp)
      | exact key _ h rfl rfl rfl rfl rfl rfl rfl (by intro w e; cases e) (by simp) (by simp) (by simp) (by simp) (by simp)

theorem wArgs_ends : ∀ (args : List WArg) (s : WSet), (∀ v, .intent v ∈ args → (atoi v).isSome = true) →
    (∀ n, args.findSome? WArg.ends = some n → wArgs args s = some (.exit n)) ∧ (args.findSome? WArg.ends = none → ∃ r, wArgs args s = some (.ok r))
  | [], s, _ => ⟨by intro n h; simp at h, fun _ => ⟨s, rfl⟩⟩
  | a :: t, s, h => by
    have ih := fun s' => wArgs_ends t s' (fun v hv => h v (List.mem_cons_of_mem _ hv))
    rw [List.findSome?_cons]
    cases a
    case intent v =>
      have hv := h v List.mem_cons_self
      rw [wArgs]
      cases e : atoi v with
      | none => rw [e] at hv; cases hv
      | some n => exact ih _
    all_goals
      rw [wArgs]
      first
      | exact ih _
      | exact ⟨by intro n h; simpa [WArg.ends] using h, by intro h; simp [WArg.ends] at h⟩

/-- What the options make of the settings. -/
structure SChosen (args : List SArg) (s r : SSet) : Prop where
  cliSev : r.cliSev = ((last (SArg.text "log-level") args).map Log.parseArg).getD s.cliSev
  logSev : r.logSev = ((last (SArg.text "log-journal-level") args).map Log.parseArg).getD s.logSev
  gstDebug : r.gstDebug = (last (SArg.text "gst-debug") args).or s.gstDebug
  scale : r.scale = (last (SArg.text "scale") args).or s.scale
  audio : r.audio = ((last (SArg.text "audio") args).map (fun v => (atoi v).getD 0)).getD s.audio
  port : r.port = ((last (SArg.text "port") args).map (fun v => (atoi v).getD 0)).getD s.port
  fits : ∀ v, .audio v ∈ args ∨ .port v ∈ args → (atoi v).isSome = true
  cea : r.cea = ((last (SArg.mask 0) args).map id).getD s.cea
  vesa : r.vesa = ((last (SArg.mask 1) args).map id).getD s.vesa
  hh : r.hh = ((last (SArg.mask 2) args).map id).getD s.hh
  player : r.player = (last (SArg.text "external-player") args).or s.player
  external : r.external = ((last (SArg.text "external-player") args).map (fun _ => true)).getD s.external
  uibc : r.uibc = true ↔ .uibc ∈ args ∨ s.uibc = true
  time : r.time = true ↔ .logTime ∈ args ∨ s.time = true
  dateTime : r.dateTime = true ↔ .logDateTime ∈ args ∨ s.dateTime = true
  ext : r.ext = s.ext

theorem setRes_eq (s : SSet) (v : List Nat) : setRes s v =
    { s with cea := ((SArg.mask 0 (.res v)).map id).getD s.cea, vesa := ((SArg.mask 1 (.res v)).map id).getD s.vesa, hh := ((SArg.mask 2 (.res v)).map id).getD s.hh } := by
  match v with
  | [] => rfl
  | [a] => rfl
  | [a, b] => rfl
  | a :: b :: c :: t => rfl

theorem sArgs_ok : ∀ (args : List SArg) (s r : SSet), sArgs args s = some (.ok r) → SChosen args s r
  | [], s, r, h => by
    simp only [sArgs, Option.some.injEq, Parsed.ok.injEq] at h
    subst h
    exact ⟨rfl, rfl, rfl, rfl, rfl, rfl, (by intro v h; simp at h), rfl, rfl, rfl, rfl, rfl, (by simp), (by simp), (by simp), rfl⟩
  | a :: t, s, r, h => by
    have key : ∀ s', sArgs t s' = some (.ok r) →
        s'.cliSev = ((SArg.text "log-level" a).map Log.parseArg).getD s.cliSev →
        s'.logSev = ((SArg.text "log-journal-level" a).map Log.parseArg).getD s.logSev →
        s'.gstDebug = (SArg.text "gst-debug" a).or s.gstDebug →
        s'.scale = (SArg.text "scale" a).or s.scale →
        s'.audio = ((SArg.text "audio" a).map (fun v => (atoi v).getD 0)).getD s.audio →
        s'.port = ((SArg.text "port" a).map (fun v => (atoi v).getD 0)).getD s.port →
        (∀ v, .audio v = a ∨ .port v = a → (atoi v).isSome = true) →
        s'.cea = ((SArg.mask 0 a).map id).getD s.cea →
        s'.vesa = ((SArg.mask 1 a).map id).getD s.vesa →
        s'.hh = ((SArg.mask 2 a).map id).getD s.hh →
        s'.player = (SArg.text "external-player" a).or s.player →
        s'.external = ((SArg.text "external-player" a).map (fun _ => true)).getD s.external →
        (s'.uibc = true ↔ .uibc = a ∨ s.uibc = true) →
        (s'.time = true ↔ .logTime = a ∨ s.time = true) →
        (s'.dateTime = true ↔ .logDateTime = a ∨ s.dateTime = true) → s'.ext = s.ext → SChosen (a :: t) s r := by
      intro s' h' e1 e2 e3 e4 e5 e6 e7 e8 e9 e10 e11 e12 e13 e14 e15 e16
      have ih := sArgs_ok t s' r h'
      refine ⟨?_, ?_, ?_, ?_, ?_, ?_, ?_, ?_, ?_, ?_, ?_, ?_, ?_, ?_, ?_, ?_⟩
      · rw [pick, ← e1]; exact ih.cliSev
      · rw [pick, ← e2]; exact ih.logSev
      · rw [pickO, ← e3]; exact ih.gstDebug
      · rw [pickO, ← e4]; exact ih.scale
      · rw [pick, ← e5]; exact ih.audio
      · rw [pick, ← e6]; exact ih.port
      · intro v hv
        rcases hv with hv | hv
        · rcases List.mem_cons.mp hv with hv | hv
          · exact e7 v (Or.inl hv)
          · exact ih.fits v (Or.inl hv)
        · rcases List.mem_cons.mp hv with hv | hv
          · exact e7 v (Or.inr hv)
          · exact ih.fits v (Or.inr hv)
      · rw [pick, ← e8]; exact ih.cea
      · rw [pick, ← e9]; exact ih.vesa
      · rw [pick, ← e10]; exact ih.hh
      · rw [pickO, ← e11]; exact ih.player
      · rw [pick, ← e12]; exact ih.external
      · rw [ih.uibc, e13, List.mem_cons, or_left_comm, or_assoc]
      · rw [ih.time, e14, List.mem_cons, or_left_comm, or_assoc]
      · rw [ih.dateTime, e15, List.mem_cons, or_left_comm, or_assoc]
      · rw [ih.ext, e16]
    cases a
    case audio v =>
      rw [sArgs] at h
      cases hv : atoi v with
      | none => simp [hv] at h
      | some n =>
        simp only [hv] at h
        exact key _ h rfl rfl rfl rfl (by show _ = (atoi v).getD 0; rw [hv]; rfl) rfl (by intro w e; rcases e with e | e <;> cases e; rw [hv]; rfl) rfl rfl rfl rfl rfl
          (by simp) (by simp) (by simp) rfl
    case port v =>
      rw [sArgs] at h
      cases hv : atoi v with
      | none => simp [hv] at h
      | some n =>
        simp only [hv] at h
        exact key _ h rfl rfl rfl rfl rfl (by show _ = (atoi v).getD 0; rw [hv]; rfl) (by intro w e; rcases e with e | e <;> cases e; rw [hv]; rfl) rfl rfl rfl rfl rfl
          (by simp) (by simp) (by simp) rfl
    case res v =>
      rw [sArgs, setRes_eq] at h
      exact key _ h rfl rfl rfl rfl rfl rfl (by intro w e; rcases e with e | e <;> cases e) rfl rfl rfl rfl rfl (by simp) (by simp) (by simp) rfl
    all_goals
      rw [sArgs] at h
      first
      | exact absurd h (by simp)
      | exact key _ h rfl rfl rfl rfl rfl rfl (by intro w e; rcases e with e | e <;> cases e) rfl rfl rfl rfl rfl (by simp) (by simp) (by simp) rfl

theorem sArgs_ends : ∀ (args : List SArg) (s : SSet), (∀ v, .audio v ∈ args ∨ .port v ∈ args → (atoi v).isSome = true) →
    (∀ n, args.findSome? SArg.ends = some n → sArgs args s = some (.exit n)) ∧ (args.findSome? SArg.ends = none → ∃ r, sArgs args s = some (.ok r))
  | [], s, _ => ⟨by intro n h; simp at h, fun _ => ⟨s, rfl⟩⟩
  | a :: t, s, h => by
    have ih := fun s' => sArgs_ends t s' (fun v hv => h v (hv.imp (List.mem_cons_of_mem _) (List.mem_cons_of_mem _)))
    rw [List.findSome?_cons]
    cases a
    case audio v =>
      have hv := h v (Or.inl List.mem_cons_self)
      rw [sArgs]
      cases e : atoi v with
      | none => rw [e] at hv; cases hv
      | some n => exact ih _
    case port v =>
      have hv := h v (Or.inr List.mem_cons_self)
      rw [sArgs]
      cases e : atoi v with
      | none => rw [e] at hv; cases hv
      | some n => exact ih _
    all_goals
      rw [sArgs]
      first
      | exact ih _
      | exact ⟨by intro n h; simpa [SArg.ends] using h, by intro h; simp [SArg.ends] at h⟩

/-- What the options make of the settings. -/
structure CChosen (args : List CArg) (s r : CSet) : Prop where
  cliSev : r.cliSev = ((last (CArg.text "log-level") args).map Log.parseArg).getD s.cliSev
  logSev : r.logSev = ((last (CArg.text "log-journal-level") args).map Log.parseArg).getD s.logSev
  time : r.time = true ↔ .logTime ∈ args ∨ s.time = true
  dateTime : r.dateTime = true ↔ .logDateTime ∈ args ∨ s.dateTime = true

theorem cArgs_ok : ∀ (args : List CArg) (s r : CSet), cArgs args s = .ok r → CChosen args s r
  | [], s, r, h => by
    simp only [cArgs, Parsed.ok.injEq] at h
    subst h
    exact ⟨rfl, rfl, (by simp), (by simp)⟩
  | a :: t, s, r, h => by
    have key : ∀ s', cArgs t s' = .ok r →
        s'.cliSev = ((CArg.text "log-level" a).map Log.parseArg).getD s.cliSev →
        s'.logSev = ((CArg.text "log-journal-level" a).map Log.parseArg).getD s.logSev →
        (s'.time = true ↔ .logTime = a ∨ s.time = true) →
        (s'.dateTime = true ↔ .logDateTime = a ∨ s.dateTime = true) → CChosen (a :: t) s r := by
      intro s' h' e1 e2 e14 e15
      have ih := cArgs_ok t s' r h'
      refine ⟨?_, ?_, ?_, ?_⟩
      · rw [pick, ← e1]; exact ih.cliSev
      · rw [pick, ← e2]; exact ih.logSev
      · rw [ih.time, e14, List.mem_cons, or_left_comm, or_assoc]
      · rw [ih.dateTime, e15, List.mem_cons, or_left_comm, or_assoc]
    cases a
    all_goals
      rw [cArgs] at h
      first
      | exact absurd h (by simp)
      | exact key _ h rfl rfl (by simp) (by simp)

theorem cArgs_ends : ∀ (args : List CArg) (s : CSet),
    (∀ n, args.findSome? CArg.ends = some n → cArgs args s = .exit n) ∧ (args.findSome? CArg.ends = none → ∃ r, cArgs args s = .ok r)
  | [], s => ⟨by intro n h; simp at h, fun _ => ⟨s, rfl⟩⟩
  | a :: t, s => by
    have ih := fun s' => cArgs_ends t s'
    rw [List.findSome?_cons]
    cases a
    all_goals
      rw [cArgs]
      first
      | exact ih _
      | exact ⟨by intro n h; simpa [CArg.ends] using h, by intro h; simp [CArg.ends] at h⟩

theorem chosen_eq {α β : Type} (g : α → β) (cli file : Option α) (d : β) :
    (cli.map g).getD ((file.map g).getD d) = chosen (cli.map g) (file.map g) d := by
  cases cli <;> cases file <;> rfl

theorem dropWhile_blank (v : List Byte) : ∃ b, (∀ c ∈ b, blank c = true) ∧ v = (v.reverse.dropWhile blank).reverse ++ b := by
  refine ⟨(v.reverse.takeWhile blank).reverse, ?_, ?_⟩
  · intro c hc
    rw [List.mem_reverse] at hc
    exact List.all_eq_true.mp (List.all_takeWhile (l := v.reverse) (p := blank)) c hc
  · rw [← List.reverse_append, List.takeWhile_append_dropWhile, List.reverse_reverse]

theorem strip_app (w b : List Byte) (hb : ∀ c ∈ b, blank c = true) (hw : ∀ c, w.getLast? = some c → blank c = false) :
    ((w ++ b).reverse.dropWhile blank).reverse = w := by
  rw [List.reverse_append, List.dropWhile_append_of_pos (by intro c hc; exact hb c (List.mem_reverse.mp hc))]
  cases h : w.reverse with
  | nil => simp at h; subst h; rfl
  | cons c t =>
    have hc : blank c = false := by
      apply hw
      rw [← List.reverse_reverse w, h]
      simp
    rw [List.dropWhile_cons_of_neg (by simp [hc]), ← h, List.reverse_reverse]

theorem bool_eq (g : Group) (key : List Byte) : g.bool key = true ↔ ∃ v, g.get key = some v ∧ Yes v := by
  unfold Group.bool
  cases h : g.get key with
  | none => simp
  | some v =>
    simp only [Option.some.injEq, Bool.or_eq_true, decide_eq_true_eq]
    constructor
    · intro hv
      obtain ⟨b, hb, e⟩ := dropWhile_blank v
      refine ⟨v, rfl, b, hb, ?_⟩
      rcases hv with hv | hv
      · left; rw [hv] at e; exact e
      · right; rw [hv] at e; exact e
    · rintro ⟨v', rfl, b, hb, e | e⟩
      · left; rw [e]; exact strip_app _ b hb (by intro c hc; revert hc; revert c; decide)
      · right; rw [e]; exact strip_app _ b hb (by intro c hc; revert hc; revert c; decide)

theorem tokens_go : ∀ (v w : List Byte), ch ':' ∉ w → (w = [] → Split (ch ':') v (tokens.go v w)) ∧ (w ≠ [] → Split (ch ':') (w ++ v) (tokens.go v w))
  | [], w, hw => by
    rw [tokens.go]
    constructor
    · intro h; rw [if_pos h]; exact .nil
    · intro h; rw [if_neg h]; exact .word h hw (Or.inl rfl) .nil
  | c :: t, w, hw => by
    rw [tokens.go]
    by_cases hc : c = ch ':'
    · rw [if_pos hc]
      have ih := (tokens_go t [] (by simp)).1 rfl
      subst hc
      constructor
      · intro h; rw [if_pos h]; exact .skip ih
      · intro h; rw [if_neg h]; exact .word h hw (Or.inr rfl) (.skip ih)
    · rw [if_neg hc]
      have ih := (tokens_go t (w ++ [c]) (by simp only [List.mem_append, List.mem_singleton, not_or]; exact ⟨hw, fun e => hc e.symm⟩)).2 (by simp)
      rw [List.append_assoc] at ih
      constructor
      · intro h; subst h; exact ih
      · intro _; exact ih

theorem tokens_split (v : List Byte) : Split (ch ':') v (tokens v) := (tokens_go v [] (by simp)).1 rfl

theorem words_go : ∀ (v w : List Byte), (32 : Byte) ∉ w →
    (w = [] → Split 32 v ((words.go v w).filter (fun w => w ≠ []))) ∧ (w ≠ [] → Split 32 (w ++ v) ((words.go v w).filter (fun w => w ≠ [])))
  | [], w, hw => by
    rw [words.go]
    constructor
    · intro h; subst h; exact .nil
    · intro h
      rw [List.filter_cons_of_pos (by simpa using h)]
      exact .word h hw (Or.inl rfl) .nil
  | c :: t, w, hw => by
    rw [words.go]
    by_cases hc : c = 32
    · rw [if_pos hc]
      have ih := (words_go t [] (by simp)).1 rfl
      subst hc
      constructor
      · intro h; subst h; exact .skip ih
      · intro h
        rw [List.filter_cons_of_pos (by simpa using h)]
        exact .word h hw (Or.inr rfl) (.skip ih)
    · rw [if_neg hc]
      have ih := (words_go t (w ++ [c]) (by simp only [List.mem_append, List.mem_singleton, not_or]; exact ⟨hw, fun e => hc e.symm⟩)).2 (by simp)
      rw [List.append_assoc] at ih
      constructor
      · intro h; subst h; exact ih
      · intro _; exact ih

theorem words_split (v : List Byte) : Split 32 v ((words v).filter (fun w => w ≠ [])) := by
  unfold words
  split
  · exact .nil
  · exact (words_go v [] (by simp)).1 rfl

theorem takeWhile_word {sep : Byte} {w t : List Byte} (hw : sep ∉ w) (ht : t = [] ∨ t.head? = some sep) : (w ++ t).takeWhile (fun c => c ≠ sep) = w := by
  rw [List.takeWhile_append_of_pos (by intro c hc; simp only [ne_eq, decide_eq_true_eq]; intro e; exact hw (e ▸ hc))]
  rcases ht with rfl | ht
  · simp
  · cases t with
    | nil => simp
    | cons c t => simp only [List.head?_cons, Option.some.injEq] at ht; subst ht; simp

theorem split_unique {sep : Byte} {v : List Byte} {a : List (List Byte)} (h : Split sep v a) : ∀ b, Split sep v b → a = b := by
  induction h with
  | nil =>
    intro b hb
    generalize hv : ([] : List Byte) = v at hb
    cases hb with
    | nil => rfl
    | skip h => cases hv
    | word h1 h2 h3 h4 => exact absurd (List.append_eq_nil_iff.mp hv.symm).1 h1
  | @skip t ws h ih =>
    intro b hb
    generalize hv : sep :: t = v at hb
    cases hb with
    | nil => cases hv
    | skip h => cases hv; exact ih _ h
    | @word w t' ws' h1 h2 h3 h4 =>
      cases w with
      | nil => exact absurd rfl h1
      | cons c w =>
        simp only [List.cons_append, List.cons.injEq] at hv
        exact absurd (by rw [hv.1]; exact List.mem_cons_self) h2
  | @word w t ws h1 h2 h3 h4 ih =>
    intro b hb
    generalize hv : w ++ t = v at hb
    cases hb with
    | nil => exact absurd (List.append_eq_nil_iff.mp hv).1 h1
    | @skip t' ws' h =>
      cases w with
      | nil => exact absurd rfl h1
      | cons c w =>
        simp only [List.cons_append, List.cons.injEq] at hv
        exact absurd (by rw [hv.1]; exact List.mem_cons_self) h2
    | @word w' t' ws' g1 g2 g3 g4 =>
      have e : w = w' := by rw [← takeWhile_word h2 h3, hv, takeWhile_word g2 g3]
      subst e
      have e2 := List.append_cancel_left hv
      subst e2
      rw [ih _ g4]

theorem cluster_one (takes : Byte → Bool) (c : Byte) (v : List Byte) (t : List (List Byte)) (h : takes c = true) : cluster takes [c] (v :: t) = ([(c, some v)], t) := by
  rw [cluster, if_pos h]; rfl

theorem cluster_flag (takes : Byte → Bool) (c : Byte) (t : List (List Byte)) (h : takes c = false) : cluster takes [c] t = ([(c, none)], t) := by
  simp [cluster, h]

theorem getopts_one (takes : Byte → Bool) (n : Nat) (c : Byte) (v : List Byte) (t : List (List Byte)) (h : takes c = true) (hc : c ≠ ch '-') :
    getopts takes (n + 1) ([ch '-', c] :: v :: t) = (c, some v) :: getopts takes n t := by
  rw [getopts, if_pos ⟨rfl, by simpa using hc⟩, cluster_one takes c v t h]
  rfl

theorem getopts_flag (takes : Byte → Bool) (n : Nat) (c : Byte) (t : List (List Byte)) (h : takes c = false) (hc : c ≠ ch '-') :
    getopts takes (n + 1) ([ch '-', c] :: t) = (c, none) :: getopts takes n t := by
  rw [getopts, if_pos ⟨rfl, by simpa using hc⟩, cluster_flag takes c t h]
  rfl

theorem getopts_two (takes : Byte → Bool) (n : Nat) (c : Byte) (t : List (List Byte)) (h : takes c = false) :
    getopts takes (n + 1) ([ch '-', c, c] :: t) = (c, none) :: (c, none) :: getopts takes n t := by
  rw [getopts, if_pos ⟨rfl, by simp⟩]
  simp [cluster, h]

theorem getopts_nil (takes : Byte → Bool) (n : Nat) : getopts takes n [] = [] := by
  cases n <;> rfl

theorem findIn_some {fs : List Byte → Entry} : ∀ {ds : List (List Byte)} {b : List Byte}, findIn fs ds = some b →
    ∃ a d t, ds = a ++ d :: t ∧ b = d ++ bytes "/wpa_supplicant" ∧ (fs b = .file true ∨ fs b = .dir) ∧
      ∀ x ∈ a, fs (x ++ bytes "/wpa_supplicant") = .missing ∨ fs (x ++ bytes "/wpa_supplicant") = .file false
  | [], b, h => by cases h
  | d :: t, b, h => by
    rw [findIn] at h
    cases e : fs (d ++ bytes "/wpa_supplicant") with
    | missing =>
      rw [e] at h
      obtain ⟨a, d', t', e1, e2, e3, e4⟩ := findIn_some h
      refine ⟨d :: a, d', t', by rw [e1]; rfl, e2, e3, ?_⟩
      intro x hx
      rcases List.mem_cons.mp hx with rfl | hx
      · exact Or.inl e
      · exact e4 x hx
    | fails => rw [e] at h; cases h
    | dir =>
      rw [e] at h
      simp only [Option.some.injEq] at h
      subst h
      exact ⟨[], d, t, rfl, rfl, Or.inr e, by simp⟩
    | file x =>
      cases x with
      | true =>
        rw [e] at h
        simp only [Option.some.injEq] at h
        subst h
        exact ⟨[], d, t, rfl, rfl, Or.inl e, by simp⟩
      | false =>
        rw [e] at h
        obtain ⟨a, d', t', e1, e2, e3, e4⟩ := findIn_some h
        refine ⟨d :: a, d', t', by rw [e1]; rfl, e2, e3, ?_⟩
        intro x hx
        rcases List.mem_cons.mp hx with rfl | hx
        · exact Or.inr e
        · exact e4 x hx

theorem findIn_skip {fs : List Byte → Entry} : ∀ (a ds : List (List Byte)),
    (∀ x ∈ a, fs (x ++ bytes "/wpa_supplicant") = .missing ∨ fs (x ++ bytes "/wpa_supplicant") = .file false) → findIn fs (a ++ ds) = findIn fs ds
  | [], _, _ => rfl
  | x :: a, ds, h => by
    rw [List.cons_append, findIn]
    have ih := findIn_skip a ds (fun y hy => h y (List.mem_cons_of_mem _ hy))
    rcases h x List.mem_cons_self with e | e <;> rw [e] <;> exact ih

theorem firstFile_eq (fs : List Byte → Option Ini) : ∀ ps, firstFile fs ps = ps.findSome? fun p => fs (path p)
  | [] => rfl
  | p :: t => by
    rw [firstFile, List.findSome?_cons, firstFile_eq fs t]
    cases fs (path p) <;> rfl

/-- The number of a text of digits. -/
theorem fold_digits (v : List Byte) (hv : ∀ c ∈ v, 48 ≤ c.toNat ∧ c.toNat ≤ 57 ∧ isDigit 10 c = true) : ∀ n, v.foldl (fun n b => 10 * n + (b.toNat - 48)) n =
    v.foldl (fun n b => n * 10 + (digitVal b).getD 0) n := by
  induction v with
  | nil => intro n; rfl
  | cons c t ih =>
    intro n
    rw [List.foldl_cons, List.foldl_cons, ih (fun c hc => hv c (List.mem_cons_of_mem _ hc))]
    obtain ⟨h1, h2, -⟩ := hv c List.mem_cons_self
    have hd := digitVal_dec (c.toNat - 48) (by omega)
    have e : (48 + (c.toNat - 48)).toUInt8 = c := by
      apply UInt8.toNat_inj.mp
      simp
      omega
    rw [e] at hd
    rw [hd, Nat.mul_comm n 10]
    rfl

theorem u64_dec (g : Group) (key : List Byte) (n : Nat) (h : g.get key = some (dec n)) (hn : n < W64) : g.u64 key = n := by
  have hd := dec_digits n
  have e : (dec n).foldl (fun n b => 10 * n + (b.toNat - 48)) 0 = n := by
    rw [fold_digits _ hd]
    exact digitsVal_dec n
  unfold Group.u64
  rw [h]
  simp only
  rw [if_pos, e]
  refine ⟨dec_ne_nil n, ?_, by rw [e]; exact hn⟩
  rw [List.all_eq_true]
  intro c hc
  obtain ⟨h1, h2, -⟩ := hd c hc
  simp only [Bool.and_eq_true, decide_eq_true_eq]
  exact ⟨UInt8.le_iff_toNat_le.mpr h1, UInt8.le_iff_toNat_le.mpr h2⟩

end Verif.Settings
