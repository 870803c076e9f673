import Verif.Options.Lemmas
import Verif.Sweep.Props
import Verif.Shapes.Props
import Verif.Activation.Props

/-!
# C83: options reach the programs, and accepted options are usable
-/

namespace Verif.Options
open Verif Verif.Cli Verif.Shell

/-! ## One program -/

/-- **C83.** A program that is started with the argument list of a dictionary of options it understands finds, for every option it has, exactly the value asked for, converted to its type, or
else the default; and nothing else. -/
theorem C83_read (P : Parser) (hP : WellFormed P) (d : PDict Str Val) (hd : (PDict.keys d).Nodup) (h : ∀ p ∈ d, Understands P p) :
    ∃ ns, parse P (makeArgList d) = .ok ns ∧ PDict.keys ns = P.map Opt.name ∧ ∀ o ∈ P, PDict.get? ns o.name = meant (PDict.get? d) o := by
  refine ⟨after P d (defaults P), ?_, ?_, ?_⟩
  · unfold parse
    rw [makeArgList_eq, if_neg]
    · have := consume_dict hP h [] false (defaults P)
      rw [List.append_nil] at this
      rw [this]
      rfl
    · simp only [List.any_eq_true, not_exists, not_and, decide_eq_true_eq]
      intro a ha
      obtain ⟨p, hp, ha⟩ := List.mem_flatMap.1 ha
      exact not_ambiguous hP (h p hp) a ha
  · have e : PDict.keys (defaults P) = P.map Opt.name := by
      unfold defaults PDict.keys
      rw [List.map_map]
      rfl
    rw [← e]
    refine keys_after (fun p hp => ?_) _ rfl
    obtain ⟨o, ho, hk, _⟩ := h p hp
    rw [e, ← hk]
    exact List.mem_map_of_mem ho
  · intro o ho
    rw [get?_after hd h hP _ ho, get?_defaults hP.1 ho]
    rfl

/-- **C83.** Nothing is ignored silently: if every name is an option of the program, or no beginning of one, the program starts if and only if it understands everything; otherwise it ends with a
usage error. -/
theorem C83_accepted_iff (P : Parser) (hP : WellFormed P) (d : PDict Str Val) (hk : ∀ p ∈ d, (∃ o ∈ P, o.name = p.1) ∨ Foreign P p.1) (hv : ∀ p ∈ d, p.2 ≠ .none → isValue p.2.str = true) :
    ((∃ ns, parse P (makeArgList d) = .ok ns) ↔ ∀ p ∈ d, Understands P p) ∧ ((∃ p ∈ d, ¬ Understands P p) → parse P (makeArgList d) = .usage) := by
  have hc : ∀ a ∈ d.flatMap argOf, classify P a ≠ .help ∧ classify P a ≠ .ambiguous := by
    intro a ha
    obtain ⟨p, hp, ha⟩ := List.mem_flatMap.1 ha
    rw [show p = (p.1, p.2) from rfl, argOf_eq] at ha
    rcases List.mem_cons.1 ha with rfl | ha
    · rcases hk p hp with ⟨o, ho, e⟩ | hf
      · rw [← e, classify_option hP ho]
        exact ⟨nofun, nofun⟩
      · rw [classify_foreign hf]
        exact ⟨nofun, nofun⟩
    · split at ha
      · cases ha
      · rename_i hn
        rw [List.mem_singleton.1 ha, classify_value (hv p hp hn)]
        exact ⟨nofun, nofun⟩
  have hp : parse P (makeArgList d) = consume P (d.flatMap argOf) none false (defaults P) := by
    unfold parse
    rw [makeArgList_eq, if_neg]
    simp only [List.any_eq_true, not_exists, not_and, decide_eq_true_eq]
    exact fun a ha => (hc a ha).2
  have h1 : ∀ ns, parse P (makeArgList d) = .ok ns → ∀ p ∈ d, Understands P p := fun ns h => consume_sound hP hk hv (hp ▸ h)
  refine ⟨⟨fun ⟨ns, h⟩ => h1 ns h, fun h => ?_⟩, ?_⟩
  · refine ⟨after P d (defaults P), ?_⟩
    have := consume_dict hP h [] false (defaults P)
    rw [List.append_nil] at this
    rw [hp, this]
    rfl
  · rintro ⟨p, hpd, hn⟩
    cases e : parse P (makeArgList d) with
    | ok ns => exact absurd (h1 ns e p hpd) hn
    | usage => rfl
    | help =>
      rw [hp] at e
      exact absurd e (consume_no_help (fun a ha => (hc a ha).1) _ _ _)

/-- **C83.** A name that is the beginning of exactly one option is taken for this option, wherever it stands. -/
theorem C83_abbreviation (P : Parser) (hP : WellFormed P) (k : Str) (o : Opt) (ho : o ∈ P) (hko : k <+: o.name) (hu : ∀ q ∈ P, k <+: q.name → q = o) (hne : k ≠ []) (heq : '=' ∉ k)
    (hh : ¬ k <+: "help".toList) (pre post : List Str) : parse P (pre ++ ("--".toList ++ k) :: post) = parse P (pre ++ ("--".toList ++ o.name) :: post) := by
  have hc : classify P ("--".toList ++ k) = .option o none := by
    by_cases e : k = o.name
    · rw [e]
      exact classify_option hP ho
    · show longOption P k = _
      unfold longOption
      have h1 : ¬ k = helpName := fun e => hh (e ▸ List.prefix_refl _)
      have h2 : find P k = none := find_none fun q hq e' => e (by rw [← hu q hq (e' ▸ List.prefix_refl _), e'])
      have h3 : completions P k = [some o] := by
        unfold completions
        rw [if_neg (show ¬ k <+: helpName from hh), List.nil_append]
        have h4 : P.filter (fun q => decide (k <+: q.name)) = [o] := by
          have hn := hP.1
          clear hP h2 e
          induction P with
          | nil => cases ho
          | cons q P ih =>
            rw [List.map_cons, List.nodup_cons] at hn
            rcases List.mem_cons.1 ho with rfl | ho'
            · rw [List.filter_cons_of_pos (by simpa using hko)]
              congr 1
              rw [List.filter_eq_nil_iff]
              intro q hq
              have : ¬ k <+: q.name := fun hkq => hn.1 (by rw [← hu q (by simp [hq]) hkq]; exact List.mem_map_of_mem hq)
              simpa using this
            · have : ¬ k <+: q.name := fun hkq => hn.1 (by rw [hu q (by simp) hkq]; exact List.mem_map_of_mem ho')
              rw [List.filter_cons_of_neg (by simpa using this)]
              exact ih ho' (fun q' hq' => hu q' (by simp [hq'])) hn.2
        rw [h4]
        rfl
      rw [if_neg hne, if_neg h1, h2, splitEq_none heq, abbreviated, h3]
  have hc' := classify_option hP ho
  unfold parse
  rw [consume_congr (hc.trans hc'.symm) (by rw [hc]; nofun)]
  simp only [List.any_append, List.any_cons, hc, hc']

/-- **C83.** A name that is the beginning of two options, without being an option, stops the program. -/
theorem C83_ambiguous (P : Parser) (k : Str) (o o' : Opt) (hn : o.name ≠ o'.name) (ho : o ∈ P) (ho' : o' ∈ P) (hk : k <+: o.name) (hk' : k <+: o'.name) (hne : k ≠ []) (heq : '=' ∉ k)
    (hh : k ≠ "help".toList) (hx : ∀ q ∈ P, q.name ≠ k) (argv : List Str) (hm : "--".toList ++ k ∈ argv) : parse P argv = .usage := by
  have hc : classify P ("--".toList ++ k) = .ambiguous := by
    show longOption P k = _
    unfold longOption
    rw [if_neg hne, if_neg (show ¬ k = helpName from hh), find_none hx, splitEq_none heq, abbreviated]
    have h1 : some o ∈ completions P k := by simp [completions, ho, hk]
    have h2 : some o' ∈ completions P k := by simp [completions, ho', hk']
    match h : completions P k with
    | [] => rw [h] at h1; cases h1
    | [some q] =>
      rw [h, List.mem_singleton] at h1 h2
      exact absurd (congrArg Opt.name (Option.some.inj (h1.trans h2.symm))) hn
    | [none] => rw [h] at h1; simp at h1
    | none :: _ :: _ => rfl
    | some _ :: _ :: _ => rfl
  unfold parse
  rw [if_pos]
  rw [List.any_eq_true]
  exact ⟨_, hm, by simpa using hc⟩

/-- **C83.** Whatever the command line is: if the program starts, it has exactly its options, each with a value of its type and one of its choices. -/
theorem C83_typed (P : Parser) (hP : Sound P) (argv : List Str) (ns : Namespace) (h : parse P argv = .ok ns) :
    PDict.keys ns = P.map Opt.name ∧ ∀ o ∈ P, ∃ v, PDict.get? ns o.name = some v ∧ Typed o v := good_parse hP h

/-- **C83.** Integers arrive as they are, with their sign, in options for integers and for decimal numbers. -/
theorem C83_integers (o : Opt) (n : Int) (hc : o.choices = none) :
    (o.kind = .int → asked o (.text (toString n).toList) = some (.int n)) ∧ (o.kind = .float → asked o (.text (toString n).toList) = some (.float n)) := by
  have hs : isValue (toString n).toList = true ∧ readInt (toString n).toList = some n ∧ readFloat (toString n).toList = some (n : Rat) := by
    cases n with
    | ofNat m =>
      have e : (toString (Int.ofNat m)).toList = decimal m := by
        show (Nat.repr m).toList = _
        rw [Nat.toList_repr, ← decimal_eq]
      rw [e]
      exact ⟨isValue_decimal m, readInt_decimal m, readFloat_decimal m⟩
    | negSucc m =>
      have e : (toString (Int.negSucc m)).toList = '-' :: decimal (m + 1) := by
        show ("-" ++ Nat.repr (m + 1)).toList = _
        rw [String.toList_append, Nat.toList_repr, ← decimal_eq]
        rfl
      rw [e]
      exact ⟨isValue_negative _, readInt_negative _, by rw [readFloat_negative, Int.negSucc_eq]; simp⟩
  generalize (toString n).toList = s at hs
  obtain ⟨h1, h2, h3⟩ := hs
  constructor <;> intro hk
  · simp [asked, hk, Val.str, h1, convert, h2, hc, allowed, Option.filter]
  · simp [asked, hk, Val.str, h1, convert, h3, hc, allowed, Option.filter]

/-! ## Jobs of a sweep -/

theorem nodup_merge {t d : PDict Str Val} (ht : (PDict.keys t).Nodup) : (PDict.keys (mergeArgs t d)).Nodup := by
  induction d generalizing t with
  | nil => exact ht
  | cons p d ih =>
    rw [mergeArgs_cons]
    cases written p.2 with
    | none => exact ih ht
    | some v => exact ih (PDict.nodup_set ht _ _)

theorem get?_runArgs (a : Settings) (template d : PDict Str Val) (seed : Nat) (hd : (PDict.keys d).Nodup) (k : Str) :
    PDict.get? (runArgs a template seed d) k = jobOption template d seed (outputDirectory a (jobName a template seed d)) k := by
  obtain ⟨h1, h2, h3⟩ := C28_run_args a template d seed
  unfold jobOption
  by_cases hk : k = "seed".toList
  · rw [if_pos hk, hk, h1, Nat.toString_eq_repr, Nat.toList_repr, ← decimal_eq]
  · rw [if_neg hk]
    by_cases hk' : k = "output_directory".toList
    · rw [if_pos hk', hk', h2]
    · rw [if_neg hk', h3 k hk hk']
      exact C28_merge_partial template d hd k

theorem isValue_dir {b : Str} (h : b ≠ []) (hb : b.head? ≠ some '-') (s : Str) : isValue (b ++ s) = true := by
  cases b with
  | nil => exact absurd rfl h
  | cons c b =>
    unfold isValue
    rw [Bool.or_eq_true, decide_eq_true_eq]
    exact Or.inl hb

theorem understands_runArgs {P : Parser} {a : Settings} {template d : PDict Str Val} {seed : Nat} (hA : Accepts P template d) (hJ : TakesJobs P) (hne : a.outputBase ≠ [])
    (hb : a.outputBase.head? ≠ some '-') : ∀ p ∈ runArgs a template seed d, Understands P p := by
  obtain ⟨hT, hD, hT', hD'⟩ := hA
  obtain ⟨⟨o, ho, hn, hk, hc⟩, o', ho', hn', hk', hc'⟩ := hJ
  rintro ⟨k, v⟩ hp
  have hnd : (PDict.keys (runArgs a template seed d)).Nodup := PDict.nodup_set (PDict.nodup_set (nodup_merge hT) _ _) _ _
  have hg := PDict.get?_eq_some_of_mem hnd hp
  rw [get?_runArgs a template d seed hD k] at hg
  unfold jobOption at hg
  split at hg
  · rename_i e
    obtain rfl := Option.some.inj hg
    refine ⟨o, ho, hn.trans e.symm, ?_⟩
    have := (C83_integers o (seed : Int) hc).1 hk
    rw [show toString (seed : Int) = toString seed from rfl] at this
    rw [this]
    rfl
  · split at hg
    · rename_i e
      obtain rfl := Option.some.inj hg
      refine ⟨o', ho', hn'.trans e.symm, ?_⟩
      simp [asked, hk', hc', Val.str, convert, allowed, outputDirectory, isValue_dir hne hb, Option.filter]
    · have hd : ∀ w, PDict.get? d k = some w → w = .bool false ∨ Understands P (k, if w = .bool true then .none else w) := fun w hw => hD' (k, w) (PDict.mem_of_get?_eq_some hw)
      have ht : PDict.get? template k = some v → Understands P (k, v) := fun h => hT' (k, v) (PDict.mem_of_get?_eq_some h)
      match hdk : PDict.get? d k with
      | none =>
        rw [hdk] at hg
        exact ht hg
      | some .none =>
        rw [hdk] at hg
        obtain rfl := Option.some.inj hg
        simpa using hd _ hdk
      | some (.bool true) =>
        rw [hdk] at hg
        obtain rfl := Option.some.inj hg
        simpa using hd _ hdk
      | some (.bool false) =>
        rw [hdk] at hg
        exact ht hg
      | some (.text s) =>
        rw [hdk] at hg
        obtain rfl := Option.some.inj hg
        simpa using hd _ hdk

/-- **C83** for sweeps: if the program understands the template and the swept options, the line given to `os.system` for a job starts this program, on the given device, and the program finds,
for every option it has, what the job asks for: its seed, its directory, the swept values, the template, or the default. -/
theorem C83_sweep (P : Parser) (hP : WellFormed P) (hJ : TakesJobs P) (a : Settings) (script path : Str) (gpu : Int) (template d : PDict Str Val) (seed : Nat) (hA : Accepts P template d)
    (hs : script ≠ [] ∧ Plain script) (hp : Plain path) (hb : Fine a.outputBase) (hb' : a.outputBase.head? ≠ some '-') (hm : Plain a.shootingModel) (hf : ∀ f ∈ a.fcn, Plain f)
    (ht : FineArgs template) (hd : FineArgs d) :
    ∃ argv ns, system (jobCommand a script path gpu template seed d) = some [⟨[("CUDA_VISIBLE_DEVICES=" ++ toString gpu).toList], "python".toList :: script :: argv,
        .pipeBoth ["tee".toList, a.outputBase ++ '/' :: jobName a template seed d ++ "/runlog.log".toList]⟩] ∧
      parse P argv = .ok ns ∧ PDict.keys ns = P.map Opt.name ∧
      ∀ o ∈ P, PDict.get? ns o.name = meant (jobOption template d seed (a.outputBase ++ '/' :: jobName a template seed d)) o := by
  obtain ⟨hdir, hargs⟩ := fine_runArgs seed hb hm hf ht hd
  have e : outputDirectory a (jobName a template seed d) = a.outputBase ++ '/' :: jobName a template seed d := by simp [outputDirectory]
  have hnd : (PDict.keys (runArgs a template seed d)).Nodup := PDict.nodup_set (PDict.nodup_set (nodup_merge hA.1) _ _) _ _
  obtain ⟨ns, h1, h2, h3⟩ := C83_read P hP _ hnd (understands_runArgs (a := a) (seed := seed) hA hJ hb.1 hb')
  refine ⟨makeArgList (runArgs a template seed d), ns, ?_, h1, h2, fun o ho => ?_⟩
  · have := C78_command_partial script path (runArgs a template seed d) (some gpu) (some (outputDirectory a (jobName a template seed d) ++ "/runlog.log".toList)) hs hp
      (fun p h => ⟨(hargs p h).1, fun hv => ⟨((hargs p h).2 hv).1, ((hargs p h).2 hv).2.1⟩⟩) (by
        intro l hl
        obtain rfl := Option.some.inj hl
        exact ⟨by simp, plain_append hdir.2.1 (by decide)⟩)
    rw [← e, makeArgList_eq]
    refine this.trans ?_
    rw [show argOf = fun p : Str × Val => ("--".toList ++ p.1) :: (if p.2 = .none then [] else [p.2.str]) from funext fun p => argOf_eq p.1 p.2]
    rfl
  · rw [h3 o ho, meant, meant, get?_runArgs a template d seed hA.2.1, e]

/-- **C83** for sweeps: if a job asks for something the program does not understand (by an option's name, or a name that is no beginning of one), the program that is started ends with a usage
error. -/
theorem C83_refused (P : Parser) (hP : WellFormed P) (a : Settings) (script path : Str) (gpu : Int) (template d : PDict Str Val) (seed : Nat) (hd' : (PDict.keys d).Nodup)
    (hk : ∀ p ∈ runArgs a template seed d, (∃ o ∈ P, o.name = p.1) ∨ Foreign P p.1) (hv : ∀ p ∈ runArgs a template seed d, p.2 ≠ .none → isValue p.2.str = true)
    (hn : ∃ k v, jobOption template d seed (a.outputBase ++ '/' :: jobName a template seed d) k = some v ∧ ¬ Understands P (k, v)) (hs : script ≠ [] ∧ Plain script) (hp : Plain path)
    (hb : Fine a.outputBase) (hm : Plain a.shootingModel) (hf : ∀ f ∈ a.fcn, Plain f) (ht : FineArgs template) (hd : FineArgs d) :
    ∃ argv, system (jobCommand a script path gpu template seed d) = some [⟨[("CUDA_VISIBLE_DEVICES=" ++ toString gpu).toList], "python".toList :: script :: argv,
        .pipeBoth ["tee".toList, a.outputBase ++ '/' :: jobName a template seed d ++ "/runlog.log".toList]⟩] ∧ parse P argv = .usage := by
  obtain ⟨hdir, hargs⟩ := fine_runArgs seed hb hm hf ht hd
  have e : outputDirectory a (jobName a template seed d) = a.outputBase ++ '/' :: jobName a template seed d := by simp [outputDirectory]
  refine ⟨makeArgList (runArgs a template seed d), ?_, (C83_accepted_iff P hP _ hk hv).2 ?_⟩
  · have := C78_command_partial script path (runArgs a template seed d) (some gpu) (some (outputDirectory a (jobName a template seed d) ++ "/runlog.log".toList)) hs hp
      (fun p h => ⟨(hargs p h).1, fun hv => ⟨((hargs p h).2 hv).1, ((hargs p h).2 hv).2.1⟩⟩) (by
        intro l hl
        obtain rfl := Option.some.inj hl
        exact ⟨by simp, plain_append hdir.2.1 (by decide)⟩)
    rw [← e, makeArgList_eq]
    refine this.trans ?_
    rw [show argOf = fun p : Str × Val => ("--".toList ++ p.1) :: (if p.2 = .none then [] else [p.2.str]) from funext fun p => argOf_eq p.1 p.2]
    rfl
  · obtain ⟨k, v, h1, h2⟩ := hn
    rw [← e, ← get?_runArgs a template d seed hd'] at h1
    exact ⟨(k, v), PDict.mem_of_get?_eq_some h1, h2⟩

end Verif.Options
