import Verif.Cli.Lemmas

/-!
# C27, C28, C29, C53: command lines, merged arguments, resumable sweeps, experiment names
-/

namespace Verif.Cli
open Verif

/-! ## C27 -/

/-- **C27.** The argument list of a run, read back, is the argument dictionary: every option once, in order, with its value or as a bare
flag.  Only condition: no value looks like an option itself. -/
theorem C27_arg_list (args : PDict Str Val) (h : ∀ p ∈ args, p.2 ≠ .none → isOption p.2.str = false) :
    parseArgs (makeArgList args) = args.map meaning := by
  rw [makeArgList_eq]
  induction args with
  | nil => rfl
  | cons p args ih =>
    have ih := ih (fun q hq => h q (by simp [hq]))
    obtain ⟨k, v⟩ := p
    have hdrop : ("--".toList ++ k).drop 2 = k := rfl
    rw [List.flatMap_cons, List.map_cons]
    by_cases hv : v = .none
    · subst hv
      have hm : meaning (k, .none) = (k, none) := rfl
      have ha : argOf (k, .none) = ["--".toList ++ k] := rfl
      rw [hm, ha]
      cases args with
      | nil => simp only [List.flatMap_nil, List.append_nil, List.map_nil]; rw [parseArgs, hdrop]
      | cons q args =>
        obtain ⟨s, hs⟩ : ∃ rest, (q :: args).flatMap argOf = ("--".toList ++ q.1) :: rest := by
          rw [List.flatMap_cons]
          unfold argOf
          split <;> exact ⟨_, rfl⟩
        rw [hs, List.cons_append, List.nil_append, parseArgs]
        have : isOption ("--".toList ++ q.1) = true := rfl
        rw [if_pos this, ← hs, ih, hdrop]
    · have hm : meaning (k, v) = (k, some v.str) := by cases v <;> first | rfl | exact absurd rfl hv
      have ha : argOf (k, v) = ["--".toList ++ k, v.str] := by cases v <;> first | rfl | exact absurd rfl hv
      rw [hm, ha]
      simp only [List.cons_append, List.nil_append]
      rw [parseArgs, if_neg (by rw [h (k, v) (by simp) hv]; simp), ih]
      rfl

/-- **C27**, number of arguments: one per option plus one per value. -/
theorem C27_arg_count (args : PDict Str Val) :
    (makeArgList args).length = args.length + (args.filter (fun p => decide (p.2 ≠ .none))).length := by
  rw [makeArgList_eq]
  induction args with
  | nil => rfl
  | cons p args ih =>
    obtain ⟨k, v⟩ := p
    rw [List.flatMap_cons, List.length_append, ih, List.length_cons, List.filter_cons]
    cases v <;> simp [argOf] <;> omega

example : parseArgs (makeArgList [("lr".toList, .text "0.1".toList), ("verbose".toList, .none), ("seed".toList, .text "3".toList)])
    = [("lr".toList, some "0.1".toList), ("verbose".toList, none), ("seed".toList, some "3".toList)] :=
  C27_arg_list _ (by decide)

/-- **C27.** The key/value string has the items in order, separated by exactly one `\;` (none before the first, none after the last). -/
theorem C27_kv_string (kvs : PDict Str Val) :
    createKvString kvs = joinWith "\\;".toList (kvs.map (fun p => p.1 ++ "=".toList ++ p.2.str)) :=
  createKv_eq kvs

/-- **C27.** After the shell removed the backslashes, splitting the key/value string at `;` gives back exactly the items. -/
theorem C27_kv_string_read_back (kvs : PDict Str Val) (hne : kvs ≠ []) (h : ∀ p ∈ kvs, ';' ∉ p.1 ∧ ';' ∉ p.2.str) :
    pieces ';' (unescape (createKvString kvs)) = kvs.map (fun p => p.1 ++ "=".toList ++ p.2.str) := by
  have hi : ∀ s ∈ kvs.map kvItem, ';' ∉ s := by
    intro s hs
    obtain ⟨p, hp, rfl⟩ := List.mem_map.1 hs
    obtain ⟨h1, h2⟩ := h p hp
    simp [kvItem, h1, h2]
  rw [createKv_eq, unescape_joinWith _ hi]
  exact pieces_joinWith _ (by simpa using hne) hi

/-- **C27.** Escaping semicolons loses nothing: removing the backslashes in front of semicolons gives the text back (also when the text
already contains backslashes). -/
theorem C27_escape (s : Str) : unescape (escapeSemicolons s) = s := by
  rw [escape_eq]
  have := unescape_escape_append s [] (by simp)
  simpa [unescape] using this

/-- Every semicolon of an escaped text is preceded by a backslash, and a text without semicolons is unchanged. -/
theorem C27_escape_protects (s a b : Str) (h : escapeSemicolons s = a ++ ';' :: b) : ∃ a', a = a' ++ ['\\'] := by
  rw [escape_eq] at h
  induction s generalizing a with
  | nil => simp at h
  | cons c s ih =>
    rw [List.flatMap_cons] at h
    by_cases hc : c = ';'
    · subst hc
      rw [escChar, if_pos rfl] at h
      match a, h with
      | [], h => simp at h
      | [x], h => simp at h; exact ⟨[], by simp [← h.1]⟩
      | x :: y :: a, h =>
        simp only [List.cons_append, List.nil_append, List.cons.injEq] at h
        obtain ⟨a', ha'⟩ := ih a h.2.2
        exact ⟨x :: y :: a', by simp [ha']⟩
    · rw [escChar, if_neg hc] at h
      match a, h with
      | [], h => simp at h; exact absurd h.1 hc
      | x :: a, h =>
        simp only [List.cons_append, List.nil_append, List.cons.injEq] at h
        obtain ⟨a', ha'⟩ := ih a h.2
        exact ⟨x :: a', by simp [ha']⟩

/-- **C27.** Adding to a non-empty configuration string appends the new text after exactly one separator; to an empty or missing one it
is just the new text (all after removing the escapes). -/
theorem C27_config_string (cs : Option Str) (a : Str) :
    ∃ r, addToConfigString cs (some a) = .ok (some r) ∧
      unescape r = (match cs with
        | none => a
        | some [] => a
        | some c => unescape c ++ ";".toList ++ a) := by
  match cs with
  | none => exact ⟨_, rfl, C27_escape a⟩
  | some [] => exact ⟨_, rfl, C27_escape a⟩
  | some (x :: c) =>
    refine ⟨_, rfl, ?_⟩
    have h := unescape_append '\\' (by decide) (x :: c) (';' :: escapeSemicolons a)
    have e : (x :: c) ++ "\\;".toList ++ escapeSemicolons a = (x :: c) ++ '\\' :: ';' :: escapeSemicolons a := by simp
    rw [e, h, unescape_sep, C27_escape]
    simp

/-- **C27**, nothing to add: a non-empty string is returned as it is, but an empty or missing one raises `AttributeError`. -/
theorem C27_config_string_none (cs : Option Str) :
    addToConfigString cs none = (match cs with
      | none => .error .attributeError
      | some [] => .error .attributeError
      | some c => .ok (some c)) := by
  match cs with
  | none => rfl
  | some [] => rfl
  | some (x :: c) => rfl

/-- **C27.** The single-string form of an argument list: every argument followed by one space; splitting at spaces gives the arguments
back (and a last empty piece), if no argument contains a space. -/
theorem C27_string_argument (l : List Str) (h : ∀ s ∈ l, ' ' ∉ s) : pieces ' ' (stringArgument l) = l ++ [[]] := by
  rw [stringArgument_eq]
  induction l with
  | nil => rfl
  | cons s l ih =>
    rw [List.flatMap_cons, List.append_assoc]
    change pieces ' ' (s ++ ' ' :: l.flatMap (fun el => el ++ [' '])) = _
    rw [pieces_append (h s (by simp)), ih (fun t ht => h t (by simp [ht]))]
    rfl

/-- An argument with a space is not kept apart from its neighbours: two different argument lists give the same command. -/
theorem C27_spaces_confuse :
    stringArgument ["a b".toList] = stringArgument ["a".toList, "b".toList] := by decide

example : pieces ';' (unescape (createKvString [("a".toList, .text "1".toList), ("b".toList, .text "2\\".toList)])) =
    ["a=1".toList, "b=2\\".toList] := C27_kv_string_read_back _ (by simp) (by decide)

/-- **C27.** The arguments written for a dictionary, in its order: the option, and unless the value is `None` the value; `True` and `False` are written with capitals. -/
theorem C27_written (args : PDict Str Val) : makeArgList args = args.flatMap fun p => match p.2 with
    | .none => ["--".toList ++ p.1]
    | .bool b => ["--".toList ++ p.1, if b then "True".toList else "False".toList]
    | .text s => ["--".toList ++ p.1, s] := by
  rw [makeArgList_eq]
  congr 1
  funext p
  obtain ⟨k, v⟩ := p
  rcases v with _ | (_ | _) | _ <;> rfl

/-! ## C28 -/

/-- **C28** (proved part).  The merged arguments, entry by entry: a swept value other than a boolean overrides the template, `True` becomes a bare
flag, everything not swept is kept.  Missing: an option swept with `False` should be absent, but it is whatever the template says. -/
theorem C28_merge_partial (template add : PDict Str Val) (hn : (PDict.keys add).Nodup) (k : Str) :
    PDict.get? (mergeArgs template add) k =
      match PDict.get? add k with
      | none => PDict.get? template k
      | some (.bool true) => some .none
      | some (.bool false) => PDict.get? template k
      | some v => some v := by
  rw [get?_mergeArgs add hn]
  cases PDict.get? add k with
  | none => rfl
  | some v =>
    cases v with
    | none => rfl
    | bool b => cases b <;> simp [written]
    | text s => rfl

/-- **C28**, full property under the condition that boolean options are not in the template: the flag is there exactly if the swept value
is `True`. -/
theorem C28_flags (template add : PDict Str Val) (hn : (PDict.keys add).Nodup)
    (ht : ∀ k b, PDict.get? add k = some (.bool b) → k ∉ PDict.keys template) (k : Str) (b : Bool)
    (hk : PDict.get? add k = some (.bool b)) :
    PDict.get? (mergeArgs template add) k = if b then some .none else none := by
  have := C28_merge_partial template add hn k
  rw [hk] at this
  cases b with
  | true => exact this
  | false => exact this.trans (PDict.get?_eq_none_iff.2 (ht k false hk))

/-- **C28** is false in general: a flag of the template cannot be switched off by sweeping it with `False`. -/
theorem C28_false_flag_stays :
    ∃ template add : PDict Str Val, PDict.get? add "viz".toList = some (.bool false) ∧
      "--viz".toList ∈ makeArgList (mergeArgs template add) :=
  ⟨[("viz".toList, .none)], [("viz".toList, .bool false)], by decide, by decide⟩

/-- **C28.** Every run gets its own seed and its own output directory, whatever the template or the sweep say; all other arguments are the
merged ones. -/
theorem C28_run_args (a : Settings) (template d : PDict Str Val) (seed : Nat) :
    PDict.get? (runArgs a template seed d) "seed".toList = some (.text (decimal seed)) ∧
    PDict.get? (runArgs a template seed d) "output_directory".toList
      = some (.text (outputDirectory a (jobName a template seed d))) ∧
    ∀ k, k ≠ "seed".toList → k ≠ "output_directory".toList →
      PDict.get? (runArgs a template seed d) k = PDict.get? (mergeArgs template d) k := by
  refine ⟨?_, ?_, ?_⟩
  · simp [runArgs, PDict.get?_set]
  · rw [runArgs, PDict.get?_set, if_neg (by decide), PDict.get?_set, if_pos rfl]
  · intro k h1 h2
    rw [runArgs, PDict.get?_set, if_neg (Ne.symm h1), PDict.get?_set, if_neg (Ne.symm h2)]

/-- the order of the merged arguments is the template's, followed by the new options -/
theorem C28_order (template add : PDict Str Val) :
    ∃ new, PDict.keys (mergeArgs template add) = PDict.keys template ++ new ∧ ∀ k ∈ new, k ∈ PDict.keys add := by
  induction add generalizing template with
  | nil => exact ⟨[], by simp [mergeArgs], by simp⟩
  | cons p add ih =>
    rw [mergeArgs_cons]
    cases hw : written p.2 with
    | none =>
      obtain ⟨new, h1, h2⟩ := ih template
      exact ⟨new, h1, fun k hk => by simp [h2 k hk]⟩
    | some v =>
      obtain ⟨new, h1, h2⟩ := ih (template.set p.1 v)
      simp only
      rw [h1, PDict.keys_set]
      split
      · exact ⟨new, rfl, fun k hk => by simp [h2 k hk]⟩
      · refine ⟨p.1 :: new, by simp, ?_⟩
        intro k hk
        rcases List.mem_cons.1 hk with rfl | hk
        · simp
        · simp [h2 k hk]

example : mergeArgs [("lr".toList, .text "1".toList), ("niters".toList, .text "5".toList)]
    [("viz".toList, .bool true), ("lr".toList, .text "2".toList), ("x".toList, .bool false)]
    = [("lr".toList, .text "2".toList), ("niters".toList, .text "5".toList), ("viz".toList, .none)] := by decide

/-! ## C29 -/

variable {J : Type}

/-- **C29.** For every history of interrupted sweeps (each killed after any number of rounds, with any runs failing), a further complete
sweep executes exactly the jobs whose result is missing, in order. -/
theorem C29_resume (name : J → Str) (js : List J) (hn : (js.map name).Nodup) (attempts : List (Nat × (J → Bool)))
    (w : World J) (ok : J → Bool) :
    (runAll name true ok (history name js w attempts) js).log =
      (history name js w attempts).log ++
        (js.filter (fun j => decide (name j ∉ (history name js w attempts).finished))).map (fun j => (j, ok j)) := by
  rw [runAll_log name ok js hn]
  congr 2
  apply List.filter_congr
  intro j _
  by_cases h : name j ∈ (history name js w attempts).finished <;> simp [h]

/-- **C29.** If its runs succeed, afterwards every result exists; what was finished stays finished. -/
theorem C29_complete (name : J → Str) (js : List J) (attempts : List (Nat × (J → Bool))) (w : World J) (ok : J → Bool)
    (hok : ∀ j ∈ js, ok j = true) :
    (∀ j ∈ js, name j ∈ (runAll name true ok (history name js w attempts) js).finished) ∧
    ∀ n ∈ (history name js w attempts).finished, n ∈ (runAll name true ok (history name js w attempts) js).finished :=
  ⟨fun j hj => runAll_complete name true ok js _ j hj (hok j hj), fun _ hn => runAll_finished name true ok js _ hn⟩

/-- **C29.** Over a whole history nothing is computed twice: results that existed at the start are never recomputed, and after a
successful run of a job it is never executed again; the finished results are exactly those. -/
theorem C29_never_recomputed (name : J → Str) (js : List J) (f0 : List Str) (attempts : List (Nat × (J → Bool))) :
    let w := history name js ⟨f0, []⟩ attempts
    (∀ e ∈ w.log, name e.1 ∉ f0) ∧
    w.log.Pairwise (fun a b => a.2 = true → name b.1 ≠ name a.1) ∧
    ∀ n, n ∈ w.finished ↔ (n ∈ f0 ∨ ∃ e ∈ w.log, e.2 = true ∧ name e.1 = n) := by
  have h0 : Inv name f0 (⟨f0, []⟩ : World J) :=
    ⟨fun _ h => h, by simp, by simp, by simp, fun n hn => Or.inl hn⟩
  have h := Inv.history js attempts h0
  refine ⟨h.notStart, h.once, fun n => ⟨h.only n, ?_⟩⟩
  rintro (hn | ⟨e, he, h1, rfl⟩)
  · exact h.start n hn
  · exact h.done e he h1

/-- **C29.** With recomputation forced, every sweep executes every job, whatever exists. -/
theorem C29_force (name : J → Str) (js : List J) (w : World J) (ok : J → Bool) :
    (runAll name false ok w js).log = w.log ++ js.map (fun j => (j, ok j)) := by
  induction js generalizing w with
  | nil => simp [runAll]
  | cons j js ih =>
    rw [runAll_cons, ih]
    unfold runOne
    simp

/-- Why different names matter: of two jobs with the same name the second one is never run, once the first succeeded. -/
theorem C29_same_name_skipped (name : J → Str) (i j : J) (hne : name i = name j) (ok : J → Bool) (hok : ok i = true)
    (w : World J) (hw : name i ∉ w.finished) :
    (runAll name true ok w [i, j]).log = w.log ++ [(i, ok i)] := by
  simp [runAll, runOne, hw, hok, ← hne]

/-- **C29.** The sweep runs every swept setting for the consecutive seeds from the starting seed on, seed by seed; with `n` settings,
job `i * n + k` is setting `k` with seed `startingSeed + i`. -/
theorem C29_seeds (a : Settings) (swept : List (PDict Str Val)) :
    (jobs a swept).length = a.nrOfSeeds * swept.length ∧
    (∀ s d, (s, d) ∈ jobs a swept ↔ (a.startingSeed ≤ s ∧ s < a.startingSeed + a.nrOfSeeds) ∧ d ∈ swept) ∧
    ∀ i k, i < a.nrOfSeeds → k < swept.length →
      (jobs a swept)[i * swept.length + k]? = (swept[k]?).map fun d => (a.startingSeed + i, d) := by
  refine ⟨?_, fun s d => ?_, ?_⟩
  · have h : ∀ ss : List Nat, (ss.flatMap fun s => swept.map fun d => (s, d)).length = ss.length * swept.length := by
      intro ss
      induction ss with
      | nil => simp
      | cons s ss ih => rw [List.flatMap_cons, List.length_append, ih, List.length_map, List.length_cons, Nat.succ_mul, Nat.add_comm]
    exact (h (seeds a)).trans (by simp [seeds])
  · simp only [jobs, seeds, List.mem_flatMap, List.mem_map, List.mem_range, Prod.mk.injEq]
    constructor
    · rintro ⟨s', ⟨i, hi, rfl⟩, d', hd, rfl, rfl⟩
      exact ⟨⟨by omega, by omega⟩, hd⟩
    · rintro ⟨⟨h1, h2⟩, hd⟩
      exact ⟨s, ⟨s - a.startingSeed, by omega, by omega⟩, d, hd, rfl, rfl⟩
  · have main : ∀ (ss : List Nat) i k, i < ss.length → k < swept.length →
        (ss.flatMap fun s => swept.map fun d => (s, d))[i * swept.length + k]? = (swept[k]?).bind fun d => (ss[i]?).map fun s => (s, d) := by
      intro ss
      induction ss with
      | nil => intro i k hi; simp at hi
      | cons s ss ih =>
        intro i k hi hk
        rw [List.flatMap_cons]
        cases i with
        | zero =>
          rw [List.getElem?_append_left (by simpa using hk)]
          simp only [Nat.zero_mul, Nat.zero_add, List.getElem?_map, List.getElem?_cons_zero, Option.map_some]
          cases swept[k]? <;> rfl
        | succ i =>
          rw [List.getElem?_append_right (by rw [List.length_map, Nat.succ_mul]; omega)]
          have e : (i + 1) * swept.length + k - (swept.map fun d => (s, d)).length = i * swept.length + k := by
            rw [List.length_map, Nat.succ_mul]; omega
          rw [e, ih i k (by simpa using hi) hk, List.getElem?_cons_succ]
    intro i k hi hk
    refine (main (seeds a) i k (by simpa [seeds] using hi) hk).trans ?_
    have e : (seeds a)[i]? = some (a.startingSeed + i) := by simp [seeds, hi]
    rw [e]
    cases swept[k]? <;> rfl

/-- two settings, two seeds starting at 3 -/
example : jobs ⟨3, 2, [], none, []⟩ [[("lr".toList, .text "1".toList)], []] =
    [(3, [("lr".toList, .text "1".toList)]), (3, []), (4, [("lr".toList, .text "1".toList)]), (4, [])] := by decide

/-- two jobs; the first attempt is killed after one round, which failed; the second attempt runs both -/
example : (runAll (fun j : Nat => decimal j) true (fun _ => true)
    (history (fun j : Nat => decimal j) [1, 2] ⟨[], []⟩ [(1, fun _ => false)]) [1, 2]).log = [(1, false), (1, true), (2, true)] := by
  decide +kernel

/-! ## C53 -/

/-- **C53.** The model and the function in the name of a job are the ones that are passed to the script; if nothing is passed (neither the
sweep nor the template has the option) the name contains the setting of the sweep program instead. -/
theorem C53_name_says (a : Settings) (template d : PDict Str Val) (s : Nat) (hn : (PDict.keys d).Nodup)
    (hm : ∀ b, PDict.get? d "shooting_model".toList ≠ some (.bool b)) (hf : ∀ b, PDict.get? d "fcn".toList ≠ some (.bool b)) :
    currentModel a template d =
      (match PDict.get? (runArgs a template s d) "shooting_model".toList with | some v => v.str | none => a.shootingModel) ∧
    currentFcn a template d =
      (match PDict.get? (runArgs a template s d) "fcn".toList with | some v => v.str | none => a.fcn.getD []) := by
  have h1 := (C28_run_args a template d s).2.2 "shooting_model".toList (by decide) (by decide)
  have h2 := (C28_run_args a template d s).2.2 "fcn".toList (by decide) (by decide)
  rw [C28_merge_partial template d hn] at h1 h2
  rw [h1, h2]
  constructor
  · unfold currentModel
    cases h : PDict.get? d "shooting_model".toList with
    | none => rfl
    | some v =>
      cases v with
      | bool b => exact absurd h (hm b)
      | none => rfl
      | text t => rfl
  · unfold currentFcn
    cases h : PDict.get? d "fcn".toList with
    | none => rfl
    | some v =>
      cases v with
      | bool b => exact absurd h (hf b)
      | none => rfl
      | text t => rfl

/-- the sweep wins over the template, also in the name -/
example : currentModel ⟨0, 1, "a".toList, none, []⟩ [("shooting_model".toList, .text "b".toList)] [("shooting_model".toList, .text "c".toList)]
    = "c".toList := by decide

/-- A disagreement: the model in the name need not be the one that is run.  If the option is only given to the sweep program, the script is
started without it and uses its own default. -/
theorem C53_model_not_passed : ∃ (a : Settings) (template d : PDict Str Val), (∀ s, PDict.get? (runArgs a template s d) "shooting_model".toList = none) ∧
    a.shootingModel = "universal".toList ∧ jobName a template 0 d = "run_00__universal".toList :=
  ⟨⟨0, 1, "universal".toList, none, "out".toList⟩, [], [], fun s => by
    rw [(C28_run_args _ _ _ s).2.2 _ (by decide) (by decide)]
    rfl, rfl, by decide +kernel⟩

/-- **C53.** A job writes to the directory with its name inside the base directory, so jobs with different names write to different directories. -/
theorem C53_directory (a : Settings) (template d d' : PDict Str Val) (s s' : Nat) :
    PDict.get? (runArgs a template s d) "output_directory".toList = some (.text (a.outputBase ++ '/' :: jobName a template s d)) ∧
      (PDict.get? (runArgs a template s d) "output_directory".toList = PDict.get? (runArgs a template s' d') "output_directory".toList ↔
        jobName a template s d = jobName a template s' d') := by
  have h : ∀ s d, PDict.get? (runArgs a template s d) "output_directory".toList = some (.text (a.outputBase ++ '/' :: jobName a template s d)) := by
    intro s d
    rw [(C28_run_args a template d s).2.1]
    simp [outputDirectory]
  refine ⟨h s d, ?_⟩
  rw [h, h]
  simp

/-- **C53.** Two experiments with the same options and the same name have the same printed values, if no value (except possibly the last)
contains an underscore. -/
theorem C53_names (basename : Str) (d d' : PDict Str Val) (hk : PDict.keys d = PDict.keys d')
    (h : ∀ p ∈ d.dropLast, '_' ∉ p.2.str) (h' : ∀ p ∈ d'.dropLast, '_' ∉ p.2.str)
    (he : experimentName basename d = experimentName basename d') :
    d.map (fun p => p.2.str) = d'.map (fun p => p.2.str) := by
  rw [experimentName_eq, experimentName_eq] at he
  exact suffix_inj d d' hk h h' (List.append_cancel_left he)

/-- **C53**, the whole name including seed, function and model.  `d`, `d'` have the same options; function and model name have no
underscore, or are the same for both. -/
theorem C53_job_names (a : Settings) (template d d' : PDict Str Val) (s s' : Nat)
    (hk : PDict.keys d = PDict.keys d') (h : ∀ p ∈ d.dropLast, '_' ∉ p.2.str) (h' : ∀ p ∈ d'.dropLast, '_' ∉ p.2.str)
    (hf : currentFcn a template d = currentFcn a template d' ∨
      ('_' ∉ currentFcn a template d ∧ '_' ∉ currentFcn a template d'))
    (hm : currentModel a template d = currentModel a template d' ∨
      ('_' ∉ currentModel a template d ∧ '_' ∉ currentModel a template d' ∧ d ≠ []))
    (he : jobName a template s d = jobName a template s' d') :
    s = s' ∧ d.map (fun p => p.2.str) = d'.map (fun p => p.2.str) := by
  unfold jobName at he
  rw [experimentName_eq, experimentName_eq] at he
  simp only [List.append_assoc] at he
  have he := List.append_cancel_left he
  change decimal02 s ++ '_' :: _ = decimal02 s' ++ '_' :: _ at he
  obtain ⟨h1, he⟩ := append_sep_inj (underscore_decimal02 s) (underscore_decimal02 s') he
  refine ⟨by rw [← readNat_decimal02 s, h1, readNat_decimal02], ?_⟩
  have he : currentModel a template d ++ d.flatMap (fun p => '_' :: (p.1 ++ ('_' :: p.2.str)))
      = currentModel a template d' ++ d'.flatMap (fun p => '_' :: (p.1 ++ ('_' :: p.2.str))) := by
    change currentFcn a template d ++ '_' :: _ = currentFcn a template d' ++ '_' :: _ at he
    rcases hf with hf | ⟨hf1, hf2⟩
    · rw [hf] at he
      have := List.append_cancel_left he
      simp only [List.cons.injEq, true_and] at this
      exact this
    · exact (append_sep_inj hf1 hf2 he).2
  have he : d.flatMap (fun p => '_' :: (p.1 ++ ('_' :: p.2.str)))
      = d'.flatMap (fun p => '_' :: (p.1 ++ ('_' :: p.2.str))) := by
    rcases hm with hm | ⟨hm1, hm2, hd⟩
    · rw [hm] at he
      exact List.append_cancel_left he
    · cases d with
      | nil => exact absurd rfl hd
      | cons p d =>
        cases d' with
        | nil => simp at hk
        | cons p' d' =>
          rw [List.flatMap_cons, List.flatMap_cons] at he ⊢
          simp only [List.cons_append] at he ⊢
          rw [(append_sep_inj hm1 hm2 he).2]
  exact suffix_inj d d' hk h h' he

/-- **C53** needs the condition: values with underscores can collide. -/
theorem C53_underscore_collision :
    ∃ d d' : PDict Str Val, PDict.keys d = PDict.keys d' ∧ d ≠ d' ∧
      experimentName "run".toList d = experimentName "run".toList d' :=
  ⟨[("k".toList, .text "a_m_b".toList), ("m".toList, .text "c".toList)],
   [("k".toList, .text "a".toList), ("m".toList, .text "b_m_c".toList)], by decide, by decide, by decide⟩

/-- **C53** also needs the same printed form: the text `True` and the flag value print the same. -/
theorem C53_print_collision :
    experimentName "run".toList [("k".toList, .bool true)] = experimentName "run".toList [("k".toList, .text "True".toList)] := by
  decide

example : experimentName "run".toList [("lr".toList, .text "0.1".toList), ("n".toList, .text "5".toList)] = "run_lr_0.1_n_5".toList := by
  decide

/-- **C53** and **C29** together: the jobs of a sweep have pairwise different names if the combinations have the same options, pairwise different
printed values without underscores, and function and model are not swept. -/
theorem C53_sweep_names (a : Settings) (template : PDict Str Val) (swept : List (PDict Str Val)) (ks : List Str)
    (hks : ∀ d ∈ swept, PDict.keys d = ks) (hu : ∀ d ∈ swept, ∀ p ∈ d, '_' ∉ p.2.str)
    (hv : (swept.map (fun d => d.map (fun p => p.2.str))).Nodup)
    (hm : "shooting_model".toList ∉ ks) (hf : "fcn".toList ∉ ks) :
    ((jobs a swept).map (fun j => jobName a template j.1 j.2)).Nodup := by
  have hconst : ∀ d ∈ swept, ∀ d' ∈ swept, currentModel a template d = currentModel a template d' ∧
      currentFcn a template d = currentFcn a template d' := by
    intro d hd d' hd'
    unfold currentModel currentFcn
    have hnone : ∀ k ∉ ks, ∀ d ∈ swept, PDict.get? d k = none := fun k hk d hd =>
      PDict.get?_eq_none_iff.2 (by rw [hks d hd]; exact hk)
    rw [hnone _ hm d hd, hnone _ hm d' hd', hnone _ hf d hd, hnone _ hf d' hd']
    exact ⟨rfl, rfl⟩
  have hinj : ∀ s s' d d', d ∈ swept → d' ∈ swept → jobName a template s d = jobName a template s' d' →
      s = s' ∧ d.map (fun p => p.2.str) = d'.map (fun p => p.2.str) := by
    intro s s' d d' hd hd' he
    refine C53_job_names a template d d' s s' (by rw [hks d hd, hks d' hd'])
      (fun p hp => hu d hd p (List.dropLast_subset _ hp)) (fun p hp => hu d' hd' p (List.dropLast_subset _ hp))
      (Or.inl (hconst d hd d' hd').2) (Or.inl (hconst d hd d' hd').1) he
  unfold jobs
  rw [List.map_flatMap, List.nodup_flatMap]
  refine ⟨?_, ?_⟩
  · intro s _
    rw [List.map_map]
    refine List.Nodup.map_on ?_ (List.Nodup.of_map _ hv)
    intro d hd d' hd' he
    exact List.inj_on_of_nodup_map hv hd hd' (hinj s s d d' hd hd' he).2
  · have hs : (seeds a).Nodup := by
      unfold seeds
      exact List.nodup_range.map (fun x y h => by simpa using h)
    refine hs.imp ?_
    intro s s' hne n hn hn'
    simp only [List.map_map, List.mem_map, Function.comp_apply] at hn hn'
    obtain ⟨d, hd, rfl⟩ := hn
    obtain ⟨d', hd', he⟩ := hn'
    exact hne (hinj s s' d d' hd hd' he.symm).1

end Verif.Cli
