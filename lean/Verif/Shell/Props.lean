import Verif.Shell.Lemmas
import Verif.Cli.Props

/-!
# C78: the command that is executed
-/

namespace Verif.Shell
open Verif Verif.Cli

theorem argOf_eq (k : Str) (v : Val) : argOf (k, v) = ("--".toList ++ k) :: (if v = .none then [] else [v.str]) := by
  cases v with
  | none => rfl
  | bool b => rfl
  | text s => rfl

theorem key_reads {k : Str} (h : Plain k) : Reads ("--".toList ++ k) ("--".toList ++ k) ∧ Kept ("--".toList ++ k) :=
  have h' : Plain ("--".toList ++ k) := plain_append (by decide) h
  ⟨reads_plain (by simp) h', kept_plain h'⟩

/-- **C78**, all but the interpreter. If the script, the path of the interpreter, the names and values of the options and the name of the log file contain no character that means something to a shell, the line given to
`os.system` starts exactly one program: `python` with the script and, in order, the options and their values, nothing split, joined or lost; with the given device (and only with that); its
output and error messages go to the log file, if there is one. -/
theorem C78_command_partial (script path : Str) (args : PDict Str Val) (cuda : Option Int) (log : Option Str) (hs : script ≠ [] ∧ Plain script) (hp : Plain path)
    (ha : ∀ p ∈ args, Plain p.1 ∧ (p.2 ≠ .none → p.2.str ≠ [] ∧ Plain p.2.str)) (hl : ∀ l ∈ log, l ≠ [] ∧ Plain l) :
    system (runCommand script args path cuda log) =
      some [⟨device cuda, "python".toList :: script :: args.flatMap fun p => ("--".toList ++ p.1) :: (if p.2 = .none then [] else [p.2.str]), logged log⟩] := by
  have e : makeArgList args = args.flatMap fun p => ("--".toList ++ p.1) :: (if p.2 = .none then [] else [p.2.str]) := by
    rw [makeArgList_eq]
    exact congrArg (List.flatMap · args) (funext fun p => argOf_eq p.1 p.2)
  have := system_of (args := args) (cuda := cuda) hs hp (l := (makeArgList args).map fun a => (a, a)) (by simp [Function.comp_def]) (by
    rw [List.forall_mem_map, e]
    intro a h
    obtain ⟨p, hp, h⟩ := List.mem_flatMap.1 h
    obtain ⟨h1, h2⟩ := ha p hp
    rcases List.mem_cons.1 h with rfl | h
    · exact key_reads h1
    · by_cases hv : p.2 = .none
      · rw [if_pos hv] at h
        cases h
      · rw [if_neg hv] at h
        obtain ⟨h3, h4⟩ := h2 hv
        rw [List.mem_singleton.1 h]
        exact ⟨reads_plain h3 h4, kept_plain h4⟩) hl
  rw [this, List.map_map, ← e]
  simp [Function.comp_def]

/-- **C78.** Read back by an argument parser, these are the options that were asked for, as long as no value looks like an option. -/
theorem C78_options (script path : Str) (args : PDict Str Val) (cuda : Option Int) (log : Option Str) (hs : script ≠ [] ∧ Plain script) (hp : Plain path)
    (ha : ∀ p ∈ args, Plain p.1 ∧ (p.2 ≠ .none → p.2.str ≠ [] ∧ Plain p.2.str ∧ isOption p.2.str = false)) (hl : ∀ l ∈ log, l ≠ [] ∧ Plain l) :
    ∃ o, system (runCommand script args path cuda log) = some [⟨device cuda, "python".toList :: script :: o, logged log⟩] ∧ parseArgs o = args.map meaning := by
  refine ⟨makeArgList args, ?_, C27_arg_list args fun p h hv => ((ha p h).2 hv).2.2⟩
  have := C78_command_partial script path args cuda log hs hp (fun p h => ⟨(ha p h).1, fun hv => ⟨((ha p h).2 hv).1, ((ha p h).2 hv).2.1⟩⟩) hl
  rw [this, makeArgList_eq]
  congr 5
  exact congrArg (List.flatMap · args) (funext fun p => (argOf_eq p.1 p.2).symm)

/-- **C78.** Values with semicolons arrive if they are escaped as `_escape_semicolons` does it: both shells together take off exactly the backslashes. -/
theorem C78_escaped (script path : Str) (args : PDict Str (Option Str)) (cuda : Option Int) (log : Option Str) (hs : script ≠ [] ∧ Plain script) (hp : Plain path)
    (ha : ∀ p ∈ args, Plain p.1 ∧ ∀ t ∈ p.2, t ≠ [] ∧ ∀ c ∈ t, c = ';' ∨ c ∉ special) (hl : ∀ l ∈ log, l ≠ [] ∧ Plain l) :
    system (runCommand script (args.map fun p => (p.1, p.2.elim .none fun t => .text (escapeSemicolons t))) path cuda log) =
      some [⟨device cuda, "python".toList :: script :: args.flatMap fun p => ("--".toList ++ p.1) :: p.2.toList, logged log⟩] := by
  have := system_of (cuda := cuda) (args := args.map fun p => (p.1, p.2.elim Val.none fun t => .text (escapeSemicolons t))) hs hp
    (l := args.flatMap fun p => (("--".toList ++ p.1), ("--".toList ++ p.1)) :: p.2.toList.map fun t => (escapeSemicolons t, t)) (by
      rw [makeArgList_eq, List.flatMap_map, List.map_flatMap]
      refine congrArg (List.flatMap · args) (funext fun p => ?_)
      obtain ⟨k, _ | t⟩ := p <;> rfl) (by
    intro a h
    obtain ⟨p, hp, h⟩ := List.mem_flatMap.1 h
    obtain ⟨h1, h2⟩ := ha p hp
    rcases List.mem_cons.1 h with rfl | h
    · exact key_reads h1
    · obtain ⟨t, ht, rfl⟩ := List.mem_map.1 h
      obtain ⟨h3, h4⟩ := h2 t (Option.mem_toList.1 ht)
      exact ⟨reads_escape h3 h4, kept_escape h4⟩) hl
  rw [this, List.map_flatMap]
  congr 5
  refine congrArg (List.flatMap · args) (funext fun p => ?_)
  obtain ⟨k, _ | t⟩ := p <;> rfl

theorem escaped_one (script path k t : Str) (cuda : Option Int) (log : Option Str) (hs : script ≠ [] ∧ Plain script) (hp : Plain path) (hk : Plain k)
    (ht : t ≠ [] ∧ ∀ c ∈ t, c = ';' ∨ c ∉ special) (hl : ∀ l ∈ log, l ≠ [] ∧ Plain l) :
    system (runCommand script [(k, .text (escapeSemicolons t))] path cuda log) = some [⟨device cuda, ["python".toList, script, "--".toList ++ k, t], logged log⟩] :=
  C78_escaped script path [(k, some t)] cuda log hs hp (List.forall_mem_singleton.2 ⟨hk, fun u hu => by obtain rfl := Option.some.inj hu; exact ht⟩) hl

theorem escape_joinWith (l : List Str) (h : ∀ s ∈ l, ';' ∉ s) : escapeSemicolons (joinWith ";".toList l) = joinWith "\\;".toList l := by
  rw [escape_eq]
  have e : ∀ s : Str, ';' ∉ s → s.flatMap escChar = s := by
    intro s hs
    induction s with
    | nil => rfl
    | cons c s ih =>
      rw [List.flatMap_cons, ih fun hm => hs (by simp [hm]), escChar, if_neg fun e => hs (by simp [e])]
      rfl
  induction l with
  | nil => rfl
  | cons s l ih =>
    cases l with
    | nil => exact e s (h s (by simp))
    | cons t l =>
      rw [joinWith, joinWith, List.flatMap_append, List.flatMap_append, ih fun x hx => h x (by simp [hx]), e s (h s (by simp))]
      rfl

theorem mem_joinWith {c : Char} {sep : Str} {l : List Str} (h : c ∈ joinWith sep l) : c ∈ sep ∨ ∃ s ∈ l, c ∈ s := by
  induction l with
  | nil => cases h
  | cons s l ih =>
    cases l with
    | nil => exact .inr ⟨s, by simp, h⟩
    | cons t l =>
      rw [joinWith, List.mem_append, List.mem_append] at h
      rcases h with (h | h) | h
      · exact .inr ⟨s, by simp, h⟩
      · exact .inl h
      · rcases ih h with h | ⟨u, hu, h⟩
        · exact .inl h
        · exact .inr ⟨u, by simp [hu], h⟩

/-- **C78.** A key/value string of `create_kv_string` arrives as one argument: the pairs, separated by single semicolons. -/
theorem C78_kv_string (script path k : Str) (kvs : PDict Str Val) (cuda : Option Int) (log : Option Str) (hs : script ≠ [] ∧ Plain script) (hp : Plain path) (hk : Plain k) (hne : kvs ≠ [])
    (ha : ∀ p ∈ kvs, Plain p.1 ∧ Plain p.2.str) (hl : ∀ l ∈ log, l ≠ [] ∧ Plain l) :
    system (runCommand script [(k, .text (createKvString kvs))] path cuda log) =
      some [⟨device cuda, ["python".toList, script, "--".toList ++ k, joinWith ";".toList (kvs.map fun p => p.1 ++ "=".toList ++ p.2.str)], logged log⟩] := by
  have hi : ∀ s ∈ kvs.map (fun p : Str × Val => p.1 ++ "=".toList ++ p.2.str), Plain s := by
    rw [List.forall_mem_map]
    exact fun p h => plain_append (plain_append (ha p h).1 (by decide)) (ha p h).2
  rw [C27_kv_string, ← escape_joinWith _ fun s h hm => hi s h ';' hm (by decide)]
  refine escaped_one script path k _ cuda log hs hp hk ?_ hl
  refine ⟨fun e => ?_, fun c hc => ?_⟩
  · cases kvs with
    | nil => exact hne rfl
    | cons p l =>
      cases l with
      | nil => simp [joinWith] at e
      | cons p' l => simp [joinWith] at e
  · rcases mem_joinWith hc with h | ⟨s, hs, h⟩
    · exact .inl (by simpa using h)
    · exact .inr (hi s hs c h)

/-- **C78.** Values with spaces (or semicolons, brackets and so on) arrive if they are written in single quotes and contain no quotes, backslash, `$` or backquote. -/
theorem C78_quoted (script path k t : Str) (cuda : Option Int) (log : Option Str) (hs : script ≠ [] ∧ Plain script) (hp : Plain path) (hk : Plain k)
    (ht : ∀ c ∈ t, c ∉ ['\'', '"', '\\', '$', '`']) (hl : ∀ l ∈ log, l ≠ [] ∧ Plain l) :
    system (runCommand script [(k, .text (['\''] ++ t ++ ['\'']))] path cuda log) = some [⟨device cuda, ["python".toList, script, "--".toList ++ k, t], logged log⟩] := by
  refine system_of (cuda := cuda) hs hp (l := [("--".toList ++ k, "--".toList ++ k), (['\''] ++ t ++ ['\''], t)]) rfl ?_ hl
  have h1 : '\'' ∉ t := fun h => ht _ h (by decide)
  have h2 : Kept t := kept_of fun c hc hq => ht c hc (by
    have : ∀ c ∈ inQuotes, c ∈ ['\'', '"', '\\', '$', '`'] := by decide
    exact this c hq)
  rw [List.forall_mem_cons, List.forall_mem_singleton]
  exact ⟨key_reads hk, reads_quoted h1, kept_append (kept_append (kept_of (by decide)) h2) (kept_of (by decide))⟩

/-! ## Sweeps -/

/-- A text that arrives and does not look like an option. -/
def Fine (s : Str) : Prop := s ≠ [] ∧ Plain s ∧ isOption s = false

instance (s : Str) : Decidable (Fine s) := by unfold Fine; infer_instance

/-- Options with plain names and values that arrive. -/
def FineArgs (d : PDict Str Val) : Prop := ∀ p ∈ d, Plain p.1 ∧ (p.2 ≠ .none → Fine p.2.str)

theorem fineArgs_set {d : PDict Str Val} (h : FineArgs d) {k : Str} {v : Val} (hk : Plain k) (hv : v ≠ .none → Fine v.str) : FineArgs (d.set k v) := by
  induction d with
  | nil =>
    intro p hp
    obtain rfl := List.mem_singleton.1 hp
    exact ⟨hk, hv⟩
  | cons q d ih =>
    have hd : FineArgs d := fun p hp => h p (by simp [hp])
    intro p hp
    unfold PDict.set at hp
    split at hp
    · rcases List.mem_cons.1 hp with rfl | hp
      · rename_i he
        exact ⟨he ▸ hk, hv⟩
      · exact hd p hp
    · rcases List.mem_cons.1 hp with rfl | hp
      · exact h q (by simp)
      · exact ih hd p hp

theorem fineArgs_merge {t d : PDict Str Val} (ht : FineArgs t) (hd : FineArgs d) : FineArgs (mergeArgs t d) := by
  unfold mergeArgs
  induction d generalizing t with
  | nil => exact ht
  | cons p d ih =>
    rw [List.foldl_cons]
    refine ih ?_ fun q hq => hd q (by simp [hq])
    obtain ⟨h1, h2⟩ := hd p (by simp)
    obtain ⟨k, v⟩ := p
    cases v with
    | none => exact fineArgs_set ht h1 fun h => absurd rfl h
    | bool b =>
      cases b with
      | true => exact fineArgs_set ht h1 fun h => absurd rfl h
      | false => exact ht
    | text s => exact fineArgs_set ht h1 h2

theorem decimal_fine (n : Nat) : Fine (decimal n) := by
  refine ⟨decimal_ne_nil n, decimal_plain n, ?_⟩
  have h : '-' ∉ decimal n := by
    induction n using decimal.induct with
    | case1 n h =>
      rw [decimal, if_pos h, List.mem_singleton]
      have : ∀ d : Fin 10, '-' ≠ digit d := by decide
      exact this ⟨n, h⟩
    | case2 n h ih =>
      rw [decimal, if_neg h, List.mem_append, not_or, List.mem_singleton]
      have : ∀ d : Fin 10, '-' ≠ digit d := by decide
      exact ⟨ih, this ⟨n % 10, Nat.mod_lt _ (by decide)⟩⟩
  unfold isOption
  rw [beq_eq_false_iff_ne]
  exact fun e => h (List.mem_of_mem_take (i := 2) (by rw [e]; decide))

theorem plain_val {d : PDict Str Val} (h : FineArgs d) {p : Str × Val} (hp : p ∈ d) : Plain p.2.str := by
  obtain ⟨_, h2⟩ := h p hp
  by_cases hv : p.2 = .none
  · rw [hv]
    decide
  · exact (h2 hv).2.1

theorem plain_name {d : PDict Str Val} (h : FineArgs d) {b : Str} (hb : Plain b) : Plain (experimentName b d) := by
  unfold experimentName
  induction d generalizing b with
  | nil => exact hb
  | cons p d ih =>
    rw [List.foldl_cons]
    refine ih (fun q hq => h q (by simp [hq])) ?_
    exact plain_append hb (plain_append (plain_append (plain_append (by decide) (h p (by simp)).1) (by decide)) (plain_val h (by simp)))

theorem plain_get {d : PDict Str Val} (h : FineArgs d) {k : Str} {v : Val} (e : PDict.get? d k = some v) : Plain v.str := plain_val h (PDict.mem_of_get?_eq_some e)

theorem plain_job {a : Settings} {template d : PDict Str Val} (seed : Nat) (hm : Plain a.shootingModel) (hf : ∀ f ∈ a.fcn, Plain f) (ht : FineArgs template) (hd : FineArgs d) :
    Plain (jobName a template seed d) := by
  unfold jobName
  have h1 : Plain (currentModel a template d) := by
    unfold currentModel
    cases e : PDict.get? d "shooting_model".toList with
    | some v => exact plain_get hd e
    | none =>
      cases e' : PDict.get? template "shooting_model".toList with
      | some v => exact plain_get ht e'
      | none => exact hm
  have h2 : Plain (currentFcn a template d) := by
    unfold currentFcn
    cases e : PDict.get? d "fcn".toList with
    | some v => exact plain_get hd e
    | none =>
      cases e' : PDict.get? template "fcn".toList with
      | some v => exact plain_get ht e'
      | none =>
        cases ef : a.fcn with
        | none => show Plain []; decide
        | some f => exact hf f ef
  have h3 : Plain (decimal02 seed) := by
    unfold decimal02
    split
    · exact plain_append (s := ['0']) (by decide) (decimal_plain seed)
    · exact decimal_plain seed
  exact plain_name hd (plain_append (plain_append (plain_append (plain_append (plain_append (by decide) h3) (by decide)) h2) (by decide)) h1)

theorem fine_runArgs {a : Settings} {template d : PDict Str Val} (seed : Nat) (hb : Fine a.outputBase) (hm : Plain a.shootingModel) (hf : ∀ f ∈ a.fcn, Plain f) (ht : FineArgs template)
    (hd : FineArgs d) : Fine (outputDirectory a (jobName a template seed d)) ∧ FineArgs (runArgs a template seed d) := by
  have hn := plain_job seed hm hf ht hd
  have e : outputDirectory a (jobName a template seed d) = a.outputBase ++ '/' :: jobName a template seed d := by simp [outputDirectory]
  have hdir : Fine (outputDirectory a (jobName a template seed d)) := by
    obtain ⟨h1, h2, h3⟩ := hb
    refine ⟨by rw [e]; simp, plain_append (plain_append h2 (by decide)) hn, ?_⟩
    rw [e]
    unfold isOption at h3 ⊢
    rw [beq_eq_false_iff_ne] at h3 ⊢
    match hB : a.outputBase, h1, h3 with
    | [], h1, _ => exact absurd rfl h1
    | [c], _, _ => simp
    | c :: c' :: t, _, h3 => simpa using h3
  exact ⟨hdir, fineArgs_set (fineArgs_set (fineArgs_merge ht hd) (v := .text _) (by decide) fun _ => hdir) (v := .text _) (by decide) fun _ => decimal_fine seed⟩

/-- **C78** for sweeps: a job with plain names and values starts one program: the script with all its options, among them the seed and the output directory of the job, on the given device; the
output goes to `runlog.log` in this directory. -/
theorem C78_sweep (a : Settings) (script path : Str) (gpu : Int) (template d : PDict Str Val) (seed : Nat) (hs : script ≠ [] ∧ Plain script) (hp : Plain path) (hb : Fine a.outputBase)
    (hm : Plain a.shootingModel) (hf : ∀ f ∈ a.fcn, Plain f) (ht : FineArgs template) (hd : FineArgs d) :
    ∃ o, system (jobCommand a script path gpu template seed d) = some [⟨[("CUDA_VISIBLE_DEVICES=" ++ toString gpu).toList], "python".toList :: script :: o,
        .pipeBoth ["tee".toList, a.outputBase ++ '/' :: jobName a template seed d ++ "/runlog.log".toList]⟩] ∧
      parseArgs o = (runArgs a template seed d).map meaning ∧
      PDict.get? (parseArgs o) "seed".toList = some (some (toString seed).toList) ∧
      PDict.get? (parseArgs o) "output_directory".toList = some (some (a.outputBase ++ '/' :: jobName a template seed d)) := by
  have e : outputDirectory a (jobName a template seed d) = a.outputBase ++ '/' :: jobName a template seed d := by simp [outputDirectory]
  obtain ⟨hdir, hargs⟩ := fine_runArgs seed hb hm hf ht hd
  obtain ⟨o, h1, h2⟩ := C78_options script path (runArgs a template seed d) (some gpu) (some (outputDirectory a (jobName a template seed d) ++ "/runlog.log".toList)) hs hp
    hargs (by
      intro l hl
      obtain rfl := Option.some.inj hl
      exact ⟨by simp, plain_append hdir.2.1 (by decide)⟩)
  have hg : ∀ k, PDict.get? (parseArgs o) k = (PDict.get? (runArgs a template seed d) k).map fun v => (meaning (k, v)).2 := by
    intro k
    rw [h2]
    generalize runArgs a template seed d = r
    induction r with
    | nil => rfl
    | cons p r ih =>
      rw [List.map_cons, PDict.get?_cons, PDict.get?_cons]
      show (if p.1 = k then some (meaning p).2 else _) = _
      by_cases hk : p.1 = k
      · rw [if_pos hk, if_pos hk]
        rfl
      · rw [if_neg hk, if_neg hk]
        exact ih
  obtain ⟨g1, g2, _⟩ := C28_run_args a template d seed
  refine ⟨o, ?_, h2, ?_, ?_⟩
  · rw [← e]
    exact h1
  · rw [hg, g1, Nat.toString_eq_repr, Nat.toList_repr, ← decimal_eq]
    rfl
  · rw [hg, g2, e]
    rfl

/-! ## Disagreements -/

/-- **C78** is false for the interpreter: the line defines an alias for `python`, but a shell that is not interactive does not use aliases.  Whatever path is given, the program that is started
is the `python` that the shell finds. -/
theorem C78_interpreter (script path : Str) (args : PDict Str Val) (cuda : Option Int) (log : Option Str) (hs : script ≠ [] ∧ Plain script) (hp : Plain path)
    (ha : ∀ p ∈ args, Plain p.1 ∧ (p.2 ≠ .none → p.2.str ≠ [] ∧ Plain p.2.str)) (hl : ∀ l ∈ log, l ≠ [] ∧ Plain l) :
    (∃ p, system (runCommand script args path cuda log) = some [p] ∧ p.argv.head? = some "python".toList) ∧
    system (runCommand script args path cuda log) = system (runCommand script args [] cuda log) := by
  have h := C78_command_partial script path args cuda log hs hp ha hl
  have h' := C78_command_partial script [] args cuda log hs (by decide) ha hl
  exact ⟨⟨_, h, rfl⟩, h.trans h'.symm⟩

/-- **C78** is false for a path with a space: nothing is started at all, because the quotes around the path end the quotes around the line. -/
theorem C78_path_with_space (script u v : Str) (args : PDict Str Val) (cuda : Option Int) (log : Option Str) (hs : Plain script) (hu : Plain u) (hv : Plain v)
    (ha : ∀ p ∈ args, Plain p.1 ∧ Plain p.2.str) (hl : ∀ l ∈ log, Plain l) :
    system (runCommand script args (u ++ ' ' :: v) cuda log) = some [] := by
  rw [runCommand_eq]
  have hk : Kept (afterAlias cuda (stringArgument ("python".toList :: script :: makeArgList args)) log) := by
    refine kept_afterAlias (kept_arguments ?_) hl
    rw [List.forall_mem_cons, List.forall_mem_cons, makeArgList_eq]
    refine ⟨kept_plain (by decide), kept_plain hs, fun a h => ?_⟩
    obtain ⟨p, hp, h⟩ := List.mem_flatMap.1 h
    rw [show argOf p = argOf (p.1, p.2) from rfl, argOf_eq] at h
    rcases List.mem_cons.1 h with rfl | h
    · exact (key_reads (ha p hp).1).2
    · split at h
      · cases h
      · rw [List.mem_singleton.1 h]
        exact kept_plain (ha p hp).2
  generalize afterAlias cuda (stringArgument ("python".toList :: script :: makeArgList args)) log = rest at hk
  have h1 : run ⟨.plain, none, []⟩ "bash -c \"alias python=\"".toList = some ⟨.plain, some "alias python=".toList, [.word "bash".toList, .word "-c".toList]⟩ := by decide +kernel
  have h2 := run_word hu "alias python=".toList [.word "bash".toList, .word "-c".toList]
  have h3 : run ⟨.plain, none, [.word "bash".toList, .word "-c".toList] ++ [.word ("alias python=".toList ++ u)]⟩ (v ++ "\"".toList) =
      some ⟨.dq, some v, [.word "bash".toList, .word "-c".toList] ++ [.word ("alias python=".toList ++ u)]⟩ := by
    by_cases hv' : v = []
    · rw [hv']
      rfl
    · rw [run_append_of (reads_plain hv' hv none _)]
      rfl
  have h : run ⟨.plain, none, []⟩ ("bash -c \"alias python=\"".toList ++ (u ++ ' ' :: v) ++ "\"".toList ++ rest ++ "\"".toList) =
      some ⟨.plain, some (v ++ rest), [.word "bash".toList, .word "-c".toList] ++ [.word ("alias python=".toList ++ u)]⟩ := by
    have e : "bash -c \"alias python=\"".toList ++ (u ++ ' ' :: v) ++ "\"".toList ++ rest ++ "\"".toList =
        "bash -c \"alias python=\"".toList ++ (u ++ (" ".toList ++ ((v ++ "\"".toList) ++ (rest ++ "\"".toList)))) := by simp
    rw [e, run_append_of h1, run_append_of h2, run_append_of (run_space _ _), run_append_of h3, run_append_of (hk _ _)]
    rfl
  rw [system_bash (s := "bash -c \"alias python=\"".toList ++ (u ++ ' ' :: v) ++ "\"".toList ++ rest ++ "\"".toList) (line := "alias python=".toList ++ u) (more := [v ++ rest])
    (by rw [tokens_of h rfl]; rfl)]
  have h4 : run ⟨.plain, none, []⟩ ("alias python=".toList ++ u) = some ⟨.plain, some ("python=".toList ++ u), [.word "alias".toList]⟩ := by
    rw [run_append_of (l' := ⟨.plain, some "python=".toList, [.word "alias".toList]⟩) (by decide +kernel)]
    exact run_word hu _ _
  rw [programs_words (l := ["alias".toList, "python=".toList ++ u]) (by rw [tokens_of h4 rfl]; rfl)]
  rfl

/-- **C78** is false for values with spaces: such a value arrives as two arguments.  (The texts of lists and tuples contain spaces.) -/
theorem C78_value_with_space (script path k u v : Str) (cuda : Option Int) (log : Option Str) (hs : script ≠ [] ∧ Plain script) (hp : Plain path) (hk : Plain k)
    (hu : u ≠ [] ∧ Plain u) (hv : v ≠ [] ∧ Plain v) (hl : ∀ l ∈ log, l ≠ [] ∧ Plain l) :
    system (runCommand script [(k, .text (u ++ ' ' :: v))] path cuda log) = some [⟨device cuda, ["python".toList, script, "--".toList ++ k, u, v], logged log⟩] := by
  have e : runCommand script [(k, .text (u ++ ' ' :: v))] path cuda log =
      "bash -c \"alias python=\"".toList ++ path ++ "\"".toList ++ afterAlias cuda (stringArgument ("python".toList :: script :: ["--".toList ++ k, u, v])) log ++ "\"".toList := by
    rw [runCommand_eq]
    have : stringArgument ("python".toList :: script :: makeArgList [(k, .text (u ++ ' ' :: v))]) = stringArgument ("python".toList :: script :: ["--".toList ++ k, u, v]) := by
      simp [stringArgument_eq, makeArgList_eq, argOf, Val.str]
    rw [this]
  have hk' : Kept (stringArgument ("python".toList :: script :: ["--".toList ++ k, u, v])) := kept_arguments (by
    simp only [List.forall_mem_cons]
    exact ⟨kept_plain (by decide), kept_plain hs.2, (key_reads hk).2, kept_plain hu.2, kept_plain hv.2, by simp⟩)
  rw [e, outer hp (kept_afterAlias hk' fun l h => (hl l h).2)]
  refine inner hp cuda (fun T => ?_) hl
  exact run_arguments [("python".toList, "python".toList), (script, script), ("--".toList ++ k, "--".toList ++ k), (u, u), (v, v)] (by
    simp only [List.forall_mem_cons]
    exact ⟨reads_plain (by decide) (by decide), reads_plain hs.1 hs.2, (key_reads hk).1, reads_plain hu.1 hu.2, reads_plain hv.1 hv.2, by simp⟩) T

theorem run_with_empty (l : List Str) (h : ∀ a ∈ l, Plain a) (toks : List Tok) :
    run ⟨.plain, none, toks⟩ (stringArgument l) = some ⟨.plain, none, toks ++ (l.filter (· ≠ [])).map .word⟩ := by
  rw [stringArgument_eq]
  induction l generalizing toks with
  | nil => simp [run_nil]
  | cons a l ih =>
    rw [List.flatMap_cons]
    by_cases ha : a = []
    · rw [ha, List.filter_cons_of_neg (by simp), List.nil_append, run_append_of (l' := ⟨.plain, none, toks⟩) rfl]
      exact ih (fun b hb => h b (by simp [hb])) _
    · rw [List.filter_cons_of_pos (by simpa using ha), List.append_assoc, run_append_of (reads_plain ha (h a (by simp)) none toks), show [' '] = " ".toList from rfl,
        run_append_of (run_space _ _)]
      refine (ih (fun b hb => h b (by simp [hb])) _).trans ?_
      simp

/-- **C78** is false for empty values: they do not arrive, and their options look like flags. -/
theorem C78_empty_value (script path : Str) (args : PDict Str Val) (cuda : Option Int) (log : Option Str) (hs : script ≠ [] ∧ Plain script) (hp : Plain path)
    (ha : ∀ p ∈ args, Plain p.1 ∧ Plain p.2.str) (hl : ∀ l ∈ log, l ≠ [] ∧ Plain l) :
    system (runCommand script args path cuda log) = some [⟨device cuda,
      "python".toList :: script :: args.flatMap fun p => ("--".toList ++ p.1) :: (if p.2 = .none ∨ p.2.str = [] then [] else [p.2.str]), logged log⟩] := by
  have hm : ∀ a ∈ makeArgList args, Plain a := by
    rw [makeArgList_eq]
    intro a h
    obtain ⟨p, hp, h⟩ := List.mem_flatMap.1 h
    rw [show argOf p = argOf (p.1, p.2) from rfl, argOf_eq] at h
    rcases List.mem_cons.1 h with rfl | h
    · exact plain_append (by decide) (ha p hp).1
    · split at h
      · cases h
      · rw [List.mem_singleton.1 h]
        exact (ha p hp).2
  have hall : ∀ a ∈ "python".toList :: script :: makeArgList args, Plain a := List.forall_mem_cons.2 ⟨by decide, List.forall_mem_cons.2 ⟨hs.2, hm⟩⟩
  rw [runCommand_eq, outer hp (kept_afterAlias (kept_arguments fun a h => kept_plain (hall a h)) fun l h => (hl l h).2)]
  refine inner hp cuda (fun T => ?_) hl
  rw [run_with_empty _ hall, List.filter_cons_of_pos (by decide), List.filter_cons_of_pos (by simpa using hs.1), makeArgList_eq, List.filter_flatMap]
  congr 6
  refine congrArg (List.flatMap · args) (funext fun p => ?_)
  rw [show argOf p = argOf (p.1, p.2) from rfl, argOf_eq]
  by_cases h1 : p.2 = .none
  · simp [h1]
  · by_cases h2 : p.2.str = []
    · simp [h1, h2]
    · simp [h1, h2]

/-- **C78** is false for values in double quotes: these end the quotes around the line.  The rest of the value, all later options and the log file are lost, without an error message. -/
theorem C78_double_quotes (script path k u v : Str) (more : PDict Str Val) (cuda : Option Int) (log : Option Str) (hs : script ≠ [] ∧ Plain script) (hp : Plain path) (hk : Plain k)
    (hu : u ≠ [] ∧ Plain u) (hv : Plain v) (ha : ∀ p ∈ more, Plain p.1 ∧ Plain p.2.str) (hl : ∀ l ∈ log, Plain l) :
    system (runCommand script ((k, .text (['"'] ++ u ++ [' '] ++ v ++ ['"'])) :: more) path cuda log) =
      some [⟨device cuda, ["python".toList, script, "--".toList ++ k, u], .inherited⟩] := by
  have hm : ∀ a ∈ makeArgList more, Kept a := by
    rw [makeArgList_eq]
    intro a h
    obtain ⟨p, hp, h⟩ := List.mem_flatMap.1 h
    rw [show argOf p = argOf (p.1, p.2) from rfl, argOf_eq] at h
    rcases List.mem_cons.1 h with rfl | h
    · exact (key_reads (ha p hp).1).2
    · split at h
      · cases h
      · rw [List.mem_singleton.1 h]
        exact kept_plain (ha p hp).2
  have hr : Kept (" ".toList ++ stringArgument (makeArgList more) ++ log.elim [] (fun l => " > >(tee ".toList ++ l ++ ") 2>&1".toList)) := by
    refine kept_append (kept_append (kept_of (by decide)) (kept_arguments hm)) ?_
    cases log with
    | none => exact kept_nil
    | some l => exact kept_append (kept_append (kept_of (by decide)) (kept_plain (hl l rfl))) (kept_of (by decide))
  have hb : Kept (cuda.elim " && ".toList (fun d => " && CUDA_VISIBLE_DEVICES=".toList ++ decimalInt d) ++ " ".toList ++ stringArgument ["python".toList, script, "--".toList ++ k]) := by
    have := kept_afterAlias (cuda := cuda) (log := none) (str := stringArgument ["python".toList, script, "--".toList ++ k]) (kept_arguments (by
      simp only [List.forall_mem_cons]
      exact ⟨kept_plain (by decide), kept_plain hs.2, (key_reads hk).2, by simp⟩)) (by simp)
    simpa [afterAlias] using this
  have e : runCommand script ((k, .text (['"'] ++ u ++ [' '] ++ v ++ ['"'])) :: more) path cuda log = "bash -c \"alias python=\"".toList ++ (path ++ ("\"".toList ++
      ((cuda.elim " && ".toList (fun d => " && CUDA_VISIBLE_DEVICES=".toList ++ decimalInt d) ++ " ".toList ++ stringArgument ["python".toList, script, "--".toList ++ k]) ++ ("\"".toList ++
      (u ++ (" ".toList ++ ((v ++ "\"".toList) ++ ((" ".toList ++ stringArgument (makeArgList more) ++ log.elim [] (fun l => " > >(tee ".toList ++ l ++ ") 2>&1".toList)) ++ "\"".toList)))))))) := by
    rw [runCommand_eq, afterAlias]
    simp [stringArgument_eq, makeArgList_eq, argOf, Val.str]
  generalize (" ".toList ++ stringArgument (makeArgList more) ++ log.elim [] (fun l => " > >(tee ".toList ++ l ++ ") 2>&1".toList)) = rest at hr e
  have h1 : run ⟨.plain, none, []⟩ "bash -c \"alias python=\"".toList = some ⟨.plain, some "alias python=".toList, [.word "bash".toList, .word "-c".toList]⟩ := by decide +kernel
  have hq : ∀ w T, run ⟨.plain, some w, T⟩ "\"".toList = some ⟨.dq, some w, T⟩ := fun _ _ => rfl
  have hq' : ∀ w T, run ⟨.dq, some w, T⟩ "\"".toList = some ⟨.plain, some w, T⟩ := fun _ _ => rfl
  have h3 : ∀ T, run ⟨.plain, none, T⟩ (v ++ "\"".toList) = some ⟨.dq, some v, T⟩ := fun T => by
    by_cases hv' : v = []
    · rw [hv']
      rfl
    · rw [run_append_of (reads_plain hv' hv none _)]
      exact hq _ _
  have ho := (run_append_of h1 _).trans ((run_append_of (run_word hp _ _) _).trans ((run_append_of (hq _ _) _).trans ((run_append_of (hb _ _) _).trans ((run_append_of (hq' _ _) _).trans
    ((run_append_of (run_word hu.2 _ _) _).trans ((run_append_of (run_space _ _) _).trans ((run_append_of (h3 _) _).trans ((run_append_of (hr _ _) _).trans (hq' _ _)))))))))
  rw [← e] at ho
  have ht := tokens_of ho rfl
  rw [system_bash (more := [v ++ rest]) (ht.trans rfl)]
  refine programs_of (path := path) (log := none) (ws := [script, "--".toList ++ k, u]) ?_
  have ha := run_arguments [("python".toList, "python".toList), (script, script), ("--".toList ++ k, "--".toList ++ k)] (by
    simp only [List.forall_mem_cons]
    exact ⟨reads_plain (by decide) (by decide), reads_plain hs.1 hs.2, (key_reads hk).1, by simp⟩)
  have hi := (run_append_of (run_begin hp cuda) _).trans ((run_append_of (ha _) _).trans (reads_plain hu.1 hu.2 none _))
  rw [List.append_assoc (_ ++ path) _ u, List.append_assoc (_ ++ _) _ u, ← List.append_assoc (_ ++ path)]
  refine (tokens_of hi rfl).trans ?_
  simp [Reader.flush, redirection]

/-! ## Concrete cases -/

/-- The line of the code for two options, a flag and a log file. -/
example : String.ofList (runCommand "s.py".toList [("a".toList, .text "1".toList), ("f".toList, .none)] "/usr/bin/python".toList (some 0) (some "o/x.log".toList)) =
    "bash -c \"alias python=\"/usr/bin/python\" && CUDA_VISIBLE_DEVICES=0 python s.py --a 1 --f  > >(tee o/x.log) 2>&1\"" := by decide +kernel

/-- `C78_command_partial`, `C78_options`, `C78_interpreter`. -/
example (path : Str) (hp : Plain path) : system (runCommand "s.py".toList [("a".toList, .text "1".toList), ("f".toList, .none)] path (some 0) (some "o/x.log".toList)) =
    some [⟨["CUDA_VISIBLE_DEVICES=0".toList], ["python".toList, "s.py".toList, "--a".toList, "1".toList, "--f".toList], .pipeBoth ["tee".toList, "o/x.log".toList]⟩] :=
  C78_command_partial _ _ _ _ _ (by decide) hp (by decide) (by decide)

/-- `C78_kv_string` (and `C78_escaped`). -/
example : system (runCommand "s.py".toList [("config".toList, .text (createKvString [("a".toList, .text "1".toList), ("b".toList, .text "2".toList)]))] "p".toList none none) =
    some [⟨[], ["python".toList, "s.py".toList, "--config".toList, "a=1;b=2".toList], .inherited⟩] :=
  C78_kv_string _ _ _ _ _ _ (by decide) (by decide) (by decide) (by decide) (by decide) (by simp)

/-- `C78_quoted`. -/
example : system (runCommand "s.py".toList [("sizes".toList, .text "'[1, 2]'".toList)] "p".toList none none) =
    some [⟨[], ["python".toList, "s.py".toList, "--sizes".toList, "[1, 2]".toList], .inherited⟩] :=
  C78_quoted _ _ _ "[1, 2]".toList _ _ (by decide) (by decide) (by decide) (by decide) (by simp)

/-- `C78_path_with_space`. -/
example : system (runCommand "s.py".toList [("a".toList, .text "1".toList)] "/my env/python".toList (some 1) none) = some [] :=
  C78_path_with_space _ "/my".toList "env/python".toList _ _ _ (by decide) (by decide) (by decide) (by decide) (by simp)

/-- `C78_value_with_space`, `C78_empty_value`, `C78_double_quotes`. -/
example : system (runCommand "s.py".toList [("a".toList, .text "1 2".toList)] "p".toList none none) =
      some [⟨[], ["python".toList, "s.py".toList, "--a".toList, "1".toList, "2".toList], .inherited⟩] ∧
    system (runCommand "s.py".toList [("a".toList, .text []), ("b".toList, .text "2".toList)] "p".toList none none) =
      some [⟨[], ["python".toList, "s.py".toList, "--a".toList, "--b".toList, "2".toList], .inherited⟩] ∧
    system (runCommand "s.py".toList [("a".toList, .text "\"1 2\"".toList), ("b".toList, .text "2".toList)] "p".toList none (some "l".toList)) =
      some [⟨[], ["python".toList, "s.py".toList, "--a".toList, "1".toList], .inherited⟩] :=
  ⟨C78_value_with_space _ _ _ "1".toList "2".toList _ _ (by decide) (by decide) (by decide) (by decide) (by decide) (by simp),
   C78_empty_value _ _ _ _ _ (by decide) (by decide) (by decide) (by simp),
   C78_double_quotes _ _ _ "1".toList "2".toList _ _ _ (by decide) (by decide) (by decide) (by decide) (by decide) (by decide) (by decide)⟩

/-- `C78_sweep`. -/
example : ∃ o, system (jobCommand ⟨3, 2, "updown".toList, none, "out".toList⟩ "s.py".toList "p".toList 0 [("lr".toList, .text "0.1".toList)] 3 [("nr".toList, .text "5".toList)]) =
      some [⟨["CUDA_VISIBLE_DEVICES=0".toList], "python".toList :: "s.py".toList :: o, .pipeBoth ["tee".toList, "out/run_03__updown_nr_5/runlog.log".toList]⟩] ∧
    parseArgs o = [("lr".toList, some "0.1".toList), ("nr".toList, some "5".toList), ("output_directory".toList, some "out/run_03__updown_nr_5".toList), ("seed".toList, some "3".toList)] := by
  obtain ⟨o, h1, h2, _⟩ := C78_sweep ⟨3, 2, "updown".toList, none, "out".toList⟩ "s.py".toList "p".toList 0 [("lr".toList, .text "0.1".toList)] [("nr".toList, .text "5".toList)] 3
    (by decide) (by decide) (by decide) (by decide) (by simp) (by unfold FineArgs; decide) (by unfold FineArgs; decide)
  have e : jobName ⟨3, 2, "updown".toList, none, "out".toList⟩ [("lr".toList, .text "0.1".toList)] 3 [("nr".toList, .text "5".toList)] = "run_03__updown_nr_5".toList := by decide +kernel
  rw [e] at h1
  exact ⟨o, h1, h2.trans (by decide +kernel)⟩

end Verif.Shell
