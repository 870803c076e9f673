import Verif.Options.Props

/-!
# C83: the programs and experiment scripts of the repository
-/

namespace Verif.Options
open Verif Verif.Cli Verif.Shell

/-! ## Parsers -/

/-- **C83.** The parsers of the five programs are as assumed above; the jobs of a sweep can be given to the two that are swept. -/
theorem C83_parsers : (∀ P ∈ [spiralParser, mappingParser, circlesParser, rotatedParser, ballsParser], Sound P) ∧ TakesJobs spiralParser ∧ TakesJobs mappingParser := by decide +kernel

/-- **C83.** The parsers of the experiment scripts are as assumed above, for any interpreter. -/
theorem C83_driver_parsers (path : Str) : Sound (mappingDriver path) ∧ Sound (spiralDriver path) ∧ Sound (weightingDriver path) := by
  have h : ∀ P : Parser, Sound P → ∀ pre post : Parser, ∀ d n, P = pre ++ ⟨n, .str, none, .str d⟩ :: post → Sound (pre ++ ⟨n, .str, none, .str path⟩ :: post) := by
    rintro P ⟨⟨h1, h2⟩, h3⟩ pre post d n rfl
    refine ⟨⟨by simpa using h1, ?_⟩, ?_⟩
    · intro o ho
      simp only [List.mem_append, List.mem_cons] at ho
      rcases ho with ho | rfl | ho
      · exact h2 o (by simp [ho])
      · exact h2 ⟨n, .str, none, .str d⟩ (by simp)
      · exact h2 o (by simp [ho])
    · intro o ho
      simp only [List.mem_append, List.mem_cons] at ho
      rcases ho with ho | rfl | ho
      · exact h3 o (by simp [ho])
      · exact ⟨fun l hl => (by cases hl), fun h => absurd rfl h⟩
      · exact h3 o (by simp [ho])
  exact ⟨h (mappingDriver []) (by decide +kernel) [_] _ [] _ rfl, h (spiralDriver []) (by decide +kernel) [_] _ [] _ rfl, h (weightingDriver []) (by decide +kernel) [_] _ [] _ rfl⟩

/-- The value of an option with choices. -/
theorem choice_of {P : Parser} (hP : Sound P) {argv : List Str} {ns : Namespace} (h : parse P argv = .ok ns) {n : Str} {l : List Str} {d : Value} (ho : (⟨n, .str, some l, d⟩ : Opt) ∈ P) :
    ∃ s ∈ l, PDict.get? ns n = some (.str s) := by
  obtain ⟨v, h1, h2⟩ := (C83_typed P hP argv ns h).2 _ ho
  cases v with
  | str s => exact ⟨s, h2 l rfl, h1⟩
  | bool b => exact h2.elim
  | int b => exact h2.elim
  | float b => exact h2.elim

/-! ## Accepted values are usable -/

/-- **C83.** Whatever command line `spiral.py`, `cc.py`, `balls.py` or `rot.py` is started with: if the parser accepts it, there is a class for the shooting model. -/
theorem C83_models (argv : List Str) (ns : Namespace) :
    (parse spiralParser argv = .ok ns → ∃ m c, PDict.get? ns "shooting_model".toList = some (.str m) ∧ spiralModel m = .ok c) ∧
    (parse circlesParser argv = .ok ns → ∃ m c, PDict.get? ns "shooting_model".toList = some (.str m) ∧ circlesModel m = .ok c) ∧
    (parse ballsParser argv = .ok ns → ∃ m c, PDict.get? ns "shooting_model".toList = some (.str m) ∧ circlesModel m = .ok c) ∧
    (parse rotatedParser argv = .ok ns → ∃ m c, PDict.get? ns "shooting_model".toList = some (.str m) ∧ rotatedModel m = .ok c) := by
  have key : ∀ {P : Parser} {f : Str → Py Str} {l : List Str} {d : Value}, Sound P → (⟨"shooting_model".toList, .str, some l, d⟩ : Opt) ∈ P → (∀ m ∈ l, (match f m with | .ok _ => true | .error _ => false) = true) →
      parse P argv = .ok ns → ∃ m c, PDict.get? ns "shooting_model".toList = some (.str m) ∧ f m = .ok c := by
    intro P f l d hP ho hf h
    obtain ⟨m, hm, hg⟩ := choice_of hP h ho
    have := hf m hm
    cases e : f m with
    | ok c => exact ⟨m, c, hg, e⟩
    | error x => rw [e] at this; cases this
  have hS := C83_parsers.1
  refine ⟨key (hS _ (by simp)) (l := ["updown_universal".toList, "simple".toList, "updown".toList, "periodic".toList]) (d := .str "updown_universal".toList) (by decide +kernel) (by decide +kernel),
    key (hS _ (by simp)) (l := ["simple".toList, "updown".toList, "updown_universal".toList]) (d := .str "updown".toList) (by decide +kernel) (by decide +kernel),
    key (hS _ (by simp)) (l := ["simple".toList, "updown".toList, "updown_universal".toList]) (d := .str "updown".toList) (by decide +kernel) (by decide +kernel),
    key (hS _ (by simp)) (l := ["simple".toList, "updown".toList, "updown_universal".toList]) (d := .str "updown".toList) (by decide +kernel) (by decide +kernel)⟩

/-- **C83**, the part that is true of `simple_functional_mapping_example.py`: every shooting model that its parser accepts, except `universal`, has a class. -/
theorem C83_mapping_model_partial (argv : List Str) (ns : Namespace) (h : parse mappingParser argv = .ok ns) :
    ∃ m, PDict.get? ns "shooting_model".toList = some (.str m) ∧ (m ≠ "universal".toList → ∃ c, mappingModel m = .ok c) := by
  obtain ⟨m, hm, hg⟩ := choice_of (C83_parsers.1 _ (by simp)) h
    (show (⟨"shooting_model".toList, .str, some ["updown_universal".toList, "universal".toList, "periodic".toList, "dampened_updown".toList, "simple".toList, "2nd_order".toList, "updown".toList,
      "general_updown".toList], .str "updown".toList⟩ : Opt) ∈ mappingParser by decide +kernel)
  refine ⟨m, hg, fun hu => ?_⟩
  have hf : ∀ m ∈ ["updown_universal".toList, "universal".toList, "periodic".toList, "dampened_updown".toList, "simple".toList, "2nd_order".toList, "updown".toList, "general_updown".toList],
      m ≠ "universal".toList → (match mappingModel m with | .ok _ => true | .error _ => false) = true := by decide +kernel
  have := hf m hm hu
  cases e : mappingModel m with
  | ok c => exact ⟨c, rfl⟩
  | error x => rw [e] at this; cases this

/-- **C83** is false of `simple_functional_mapping_example.py`: it accepts `--shooting_model universal`, with any other options it understands, but there is no such class; it stops with
`AttributeError`. -/
theorem C83_universal (d : PDict Str Val) (hd : (PDict.keys d).Nodup) (h : ∀ p ∈ d, Understands mappingParser p) (hu : PDict.get? d "shooting_model".toList = some (.text "universal".toList)) :
    ∃ ns, parse mappingParser (makeArgList d) = .ok ns ∧ PDict.get? ns "shooting_model".toList = some (.str "universal".toList) ∧ mappingModel "universal".toList = .error .attributeError := by
  obtain ⟨ns, h1, _, h3⟩ := C83_read mappingParser (C83_parsers.1 _ (by simp)).1 d hd h
  refine ⟨ns, h1, ?_, by decide +kernel⟩
  have := h3 ⟨"shooting_model".toList, .str, some ["updown_universal".toList, "universal".toList, "periodic".toList, "dampened_updown".toList, "simple".toList, "2nd_order".toList, "updown".toList,
      "general_updown".toList], .str "updown".toList⟩ (by decide +kernel)
  rw [show PDict.get? ns "shooting_model".toList = _ from this, meant, hu]
  decide +kernel

/-- **C83.** Whatever command line one of the five programs is started with: if the parser accepts it, the nonlinearity exists, and so does the way to find the initial conditions in all models. -/
theorem C83_nonlinearity (P : Parser) (hP : P ∈ [spiralParser, mappingParser, circlesParser, rotatedParser, ballsParser]) (argv : List Str) (ns : Namespace) (h : parse P argv = .ok ns) :
    (∃ s n, PDict.get? ns "nonlinearity".toList = some (.str s) ∧ Activation.choose (some s) = .ok n) ∧
    ∃ s, PDict.get? ns "optimize_over_data_initial_conditions_type".toList = some (.str s) ∧
      ∀ cls, cls ≠ Shapes.Cls.upDownConv → ∀ b, ∃ mode, Shapes.modeOf cls b (String.ofList s) = .ok mode := by
  have hS := C83_parsers.1 P hP
  constructor
  · have hN : ∀ P ∈ [spiralParser, mappingParser, circlesParser, rotatedParser, ballsParser], ∃ o ∈ P, o.name = "nonlinearity".toList ∧ o.kind = .str ∧
        ∃ l ∈ o.choices, ∀ s ∈ l, Activation.lower s ∈ Activation.supported := by decide +kernel
    obtain ⟨⟨n, k, c, d⟩, ho, hn, hk, l, hl, hs⟩ := hN P hP
    dsimp only at hn hk hl
    subst hn hk
    obtain rfl : c = some l := hl
    obtain ⟨s, hs', hg⟩ := choice_of hS h ho
    obtain ⟨n, hn⟩ := (Activation.C31_accepted s).2 (hs s hs')
    exact ⟨s, n, hg, hn⟩
  · have hN : ∀ P ∈ [spiralParser, mappingParser, circlesParser, rotatedParser, ballsParser], ∃ o ∈ P, o.name = "optimize_over_data_initial_conditions_type".toList ∧ o.kind = .str ∧
        ∃ l ∈ o.choices, ∀ s ∈ l, String.ofList s ∈ ["direct", "linear", "mini_nn"] := by decide +kernel
    obtain ⟨⟨n, k, c, d⟩, ho, hn, hk, l, hl, hs⟩ := hN P hP
    dsimp only at hn hk hl
    subst hn hk
    obtain rfl : c = some l := hl
    obtain ⟨s, hs', hg⟩ := choice_of hS h ho
    refine ⟨s, hg, fun cls hc b => ?_⟩
    cases b with
    | false => exact ⟨_, (Shapes.C58_modes cls _).1⟩
    | true =>
      cases e : Shapes.modeOf cls true (String.ofList s) with
      | ok m => exact ⟨m, rfl⟩
      | error x =>
        exfalso
        have hs := hs s hs'
        simp only [List.mem_cons, List.not_mem_nil, or_false] at hs
        rcases hs with h | h | h <;> rw [h] at e <;> cases cls <;> simp [Shapes.modeOf] at e hc

/-! ## The parsers of the experiment scripts -/

/-- **C83.** `setup_cmdline_parsing` knows three types of experiments; the spiral and functional mapping ones always have a shooting model for `sweep_parameters`: the swept one, the one of the
template, or the one of the command line. -/
theorem C83_driver_model (path : Str) (argv : List Str) (ns : Namespace) (template d : PDict Str Val) (type : Str) :
    (type ∉ ["simple_functional_mapping".toList, "simple_functional_weighting".toList, "spiral".toList] → driverParser type path = .error .valueError) ∧
    ∀ P, driverParser type path = .ok P → parse P argv = .ok ns → type ≠ "simple_functional_weighting".toList →
      ∃ m, modelOf ns template d = .ok m ∧ ∀ a : Settings, PDict.get? ns "shooting_model".toList = some (.str a.shootingModel) → currentModel a template d = m := by
  refine ⟨fun h => if_pos h, ?_⟩
  intro P hP h ht
  obtain ⟨h1, h2, _⟩ := C83_driver_parsers path
  have hm : ∃ m, PDict.get? ns "shooting_model".toList = some (.str m) := by
    unfold driverParser at hP
    split at hP
    · cases hP
    · split at hP
      · obtain rfl := Except.ok.inj hP
        obtain ⟨m, _, hm⟩ := choice_of h1 h (n := "shooting_model".toList) (.tail _ (.tail _ (.tail _ (.tail _ (.tail _ (.head _))))))
        exact ⟨m, hm⟩
      · split at hP
        · obtain rfl := Except.ok.inj hP
          obtain ⟨m, _, hm⟩ := choice_of h2 h (n := "shooting_model".toList) (.tail _ (.tail _ (.tail _ (.tail _ (.head _)))))
          exact ⟨m, hm⟩
        · rename_i h1 h2 h3
          rw [Decidable.not_not, List.mem_cons, List.mem_cons, List.mem_singleton] at h1
          rcases h1 with h | h | h <;> contradiction
  obtain ⟨m, hm⟩ := hm
  unfold modelOf currentModel
  cases PDict.get? d "shooting_model".toList with
  | some v => exact ⟨_, rfl, fun _ _ => rfl⟩
  | none =>
    cases PDict.get? template "shooting_model".toList with
    | some v => exact ⟨_, rfl, fun _ _ => rfl⟩
    | none =>
      rw [hm]
      refine ⟨m, rfl, fun a ha => ?_⟩
      exact (Value.str.inj (Option.some.inj ha)).symm

/-- **C83** is false for the weighting experiments: their parser has no shooting model, but `sweep_parameters` asks for it: unless it is swept or in the template, every sweep stops with
`AttributeError` before the first job. -/
theorem C83_weighting (path : Str) (argv : List Str) (ns : Namespace) (template d : PDict Str Val) (h : parse (weightingDriver path) argv = .ok ns) (ht : "shooting_model".toList ∉ PDict.keys template)
    (hd : "shooting_model".toList ∉ PDict.keys d) : modelOf ns template d = .error .attributeError := by
  have hk := (C83_typed _ (C83_driver_parsers path).2.2 argv ns h).1
  have : PDict.get? ns "shooting_model".toList = none := by
    rw [PDict.get?_eq_none_iff, hk]
    show _ ∉ List.map Opt.name (weightingDriver [])
    decide +kernel
  unfold modelOf
  rw [PDict.get?_eq_none_iff.2 ht, PDict.get?_eq_none_iff.2 hd, this]

/-! ## What the experiment scripts start -/

/-- A call that works for any base directory: its texts are plain and the program understands its template with all combinations. -/
def Works (P : Parser) (c : SweepCall × List (PDict Str Val)) : Prop :=
  c.1.script ≠ [] ∧ Plain c.1.script ∧ (c.1.dirPrefix ≠ [] ∧ Plain c.1.dirPrefix ∧ c.1.dirPrefix.head? ≠ some '-') ∧ FineArgs c.1.template ∧ ∀ d ∈ c.2, FineArgs d ∧ Accepts P c.1.template d

instance (d : PDict Str Val) : Decidable (FineArgs d) := by unfold FineArgs; infer_instance
instance (P : Parser) (c : SweepCall × List (PDict Str Val)) : Decidable (Works P c) := by unfold Works; infer_instance

theorem fine_prefix {p b : Str} (h : p ≠ [] ∧ Plain p ∧ p.head? ≠ some '-') (hb : Plain b) : Fine (p ++ b) ∧ (p ++ b).head? ≠ some '-' := by
  obtain ⟨h1, h2, h3⟩ := h
  cases p with
  | nil => exact absurd rfl h1
  | cons c p =>
    have hc : c ≠ '-' := fun e => h3 (by simp [e])
    refine ⟨⟨by simp, plain_append h2 hb, ?_⟩, h3⟩
    unfold isOption
    rw [beq_eq_false_iff_ne]
    intro e
    simp only [List.cons_append, List.take_succ_cons] at e
    exact hc (List.cons.inj e).1

theorem works_job {P : Parser} (hP : WellFormed P) (hJ : TakesJobs P) {c : SweepCall × List (PDict Str Val)} (hc : Works P c) (a : Settings) (path : Str) (gpu : Int) (hp : Plain path)
    (hb : Plain a.outputBase) (hm : Plain a.shootingModel) (hf : ∀ f ∈ a.fcn, Plain f) (j : Nat × PDict Str Val) (hj : j.2 ∈ c.2) :
    ∃ argv ns, system (jobCommand (callSettings a c.1) c.1.script path gpu c.1.template j.1 j.2) = some [⟨[("CUDA_VISIBLE_DEVICES=" ++ toString gpu).toList], "python".toList :: c.1.script :: argv,
        .pipeBoth ["tee".toList, (c.1.dirPrefix ++ a.outputBase) ++ '/' :: jobName a c.1.template j.1 j.2 ++ "/runlog.log".toList]⟩] ∧
      parse P argv = .ok ns ∧ PDict.keys ns = P.map Opt.name ∧
      ∀ o ∈ P, PDict.get? ns o.name = meant (jobOption c.1.template j.2 j.1 ((c.1.dirPrefix ++ a.outputBase) ++ '/' :: jobName a c.1.template j.1 j.2)) o := by
  obtain ⟨h1, h2, h3, h4, h5⟩ := hc
  obtain ⟨hfine, hhead⟩ := fine_prefix h3 hb
  exact C83_sweep P hP hJ (callSettings a c.1) c.1.script path gpu c.1.template j.2 j.1 (h5 _ hj).2 ⟨h1, h2⟩ hp hfine hhead hm hf h4 (h5 _ hj).1

theorem mem_jobs {a : Settings} {l : List (PDict Str Val)} {j : Nat × PDict Str Val} (h : j ∈ jobs a l) : j.2 ∈ l := by
  unfold jobs at h
  obtain ⟨s, _, h⟩ := List.mem_flatMap.1 h
  obtain ⟨d, hd, rfl⟩ := List.mem_map.1 h
  exact hd

/-- **C83** for the two spiral experiments, with a model that `spiral.py` knows: whatever the seeds, the base directory and the device are, every line given to `os.system` starts `spiral.py`,
which accepts its options and finds exactly the values of the job. -/
theorem C83_spiral_partial (m : Str) (hm : m ∈ ["updown_universal".toList, "simple".toList, "updown".toList, "periodic".toList]) (calls : List SweepCall)
    (hcalls : calls ∈ [spiralCalls m, spiralRnnCalls m]) (a : Settings) (path : Str) (gpu : Int) (hp : Plain path) (hb : Plain a.outputBase) (ha : a.shootingModel = m) (hf : a.fcn = none) :
    ∀ line ∈ commands a path gpu calls, ∃ c ∈ combinations calls Sweep.fresh, ∃ j ∈ jobs (callSettings a c.1) c.2, ∃ argv ns,
      system line = some [⟨[("CUDA_VISIBLE_DEVICES=" ++ toString gpu).toList], "python".toList :: "spiral.py".toList :: argv,
        .pipeBoth ["tee".toList, (c.1.dirPrefix ++ a.outputBase) ++ '/' :: jobName a c.1.template j.1 j.2 ++ "/runlog.log".toList]⟩] ∧
      parse spiralParser argv = .ok ns ∧
      ∀ o ∈ spiralParser, PDict.get? ns o.name = meant (jobOption c.1.template j.2 j.1 ((c.1.dirPrefix ++ a.outputBase) ++ '/' :: jobName a c.1.template j.1 j.2)) o := by
  have hw : ∀ m ∈ ["updown_universal".toList, "simple".toList, "updown".toList, "periodic".toList], Plain m ∧
      ∀ calls ∈ [spiralCalls m, spiralRnnCalls m], ∀ c ∈ combinations calls Sweep.fresh, c.1.script = "spiral.py".toList ∧ Works spiralParser c := by decide +kernel
  obtain ⟨hpm, hw⟩ := hw m hm
  intro line hl
  obtain ⟨c, hc, hl⟩ := List.mem_flatMap.1 hl
  obtain ⟨j, hj, rfl⟩ := List.mem_map.1 hl
  obtain ⟨hs, hw⟩ := hw calls hcalls c hc
  obtain ⟨argv, ns, h1, h2, _, h3⟩ := works_job (C83_parsers.1 _ (by simp)).1 C83_parsers.2.1 hw a path gpu hp hb (ha ▸ hpm) (by simp [hf]) j (mem_jobs hj)
  exact ⟨c, hc, j, hj, argv, ns, by rw [h1, hs], h2, h3⟩

/-- **C83** for the two functional mapping experiments, with every model and function that their parser accepts: the same.  (The model `universal` is accepted by the started program, too, but see
`C83_universal`.) -/
theorem C83_mapping_partial (m f : Str)
    (hm : m ∈ ["updown_universal".toList, "universal".toList, "periodic".toList, "dampened_updown".toList, "simple".toList, "2nd_order".toList, "updown".toList, "general_updown".toList])
    (hf : f ∈ ["cubic".toList, "quadratic".toList]) (calls : List SweepCall) (hcalls : calls ∈ [mappingCalls m f, mappingRnnCalls m f]) (a : Settings) (path : Str) (gpu : Int) (hp : Plain path)
    (hb : Plain a.outputBase) (ha : a.shootingModel = m) (haf : a.fcn = some f) :
    ∀ line ∈ commands a path gpu calls, ∃ c ∈ combinations calls Sweep.fresh, ∃ j ∈ jobs (callSettings a c.1) c.2, ∃ argv ns,
      system line = some [⟨[("CUDA_VISIBLE_DEVICES=" ++ toString gpu).toList], "python".toList :: "simple_functional_mapping_example.py".toList :: argv,
        .pipeBoth ["tee".toList, (c.1.dirPrefix ++ a.outputBase) ++ '/' :: jobName a c.1.template j.1 j.2 ++ "/runlog.log".toList]⟩] ∧
      parse mappingParser argv = .ok ns ∧
      ∀ o ∈ mappingParser, PDict.get? ns o.name = meant (jobOption c.1.template j.2 j.1 ((c.1.dirPrefix ++ a.outputBase) ++ '/' :: jobName a c.1.template j.1 j.2)) o := by
  have hw : ∀ m ∈ ["updown_universal".toList, "universal".toList, "periodic".toList, "dampened_updown".toList, "simple".toList, "2nd_order".toList, "updown".toList, "general_updown".toList],
      Plain m ∧ ∀ f ∈ ["cubic".toList, "quadratic".toList], Plain f ∧ ∀ calls ∈ [mappingCalls m f, mappingRnnCalls m f], ∀ c ∈ combinations calls Sweep.fresh,
        c.1.script = "simple_functional_mapping_example.py".toList ∧ Works mappingParser c := by decide +kernel
  obtain ⟨hpm, hw⟩ := hw m hm
  obtain ⟨hpf, hw⟩ := hw f hf
  intro line hl
  obtain ⟨c, hc, hl⟩ := List.mem_flatMap.1 hl
  obtain ⟨j, hj, rfl⟩ := List.mem_map.1 hl
  obtain ⟨hs, hw⟩ := hw calls hcalls c hc
  obtain ⟨argv, ns, h1, h2, _, h3⟩ := works_job (C83_parsers.1 _ (by simp)).1 C83_parsers.2.2 hw a path gpu hp hb (ha ▸ hpm) (by simpa [haf] using hpf) j (mem_jobs hj)
  exact ⟨c, hc, j, hj, argv, ns, by rw [h1, hs], h2, h3⟩

/-! ## Disagreements -/

theorem forall_set {Q : Str × Val → Prop} {d : PDict Str Val} (h : ∀ p ∈ d, Q p) {k : Str} {v : Val} (hk : Q (k, v)) : ∀ p ∈ d.set k v, Q p := by
  induction d with
  | nil =>
    intro p hp
    obtain rfl := List.mem_singleton.1 hp
    exact hk
  | cons q d ih =>
    intro p hp
    unfold PDict.set at hp
    split at hp
    · rcases List.mem_cons.1 hp with rfl | hp
      · rename_i he
        exact he ▸ hk
      · exact h p (by simp [hp])
    · rcases List.mem_cons.1 hp with rfl | hp
      · exact h q (by simp)
      · exact ih (fun q hq => h q (by simp [hq])) p hp

theorem forall_merge {Q : Str × Val → Prop} (hQ : ∀ k v, Q (k, v) → Q (k, .none)) {t d : PDict Str Val} (ht : ∀ p ∈ t, Q p) (hd : ∀ p ∈ d, Q p) : ∀ p ∈ mergeArgs t d, Q p := by
  induction d generalizing t with
  | nil => exact ht
  | cons p d ih =>
    rw [mergeArgs_cons]
    have hp := hd p (by simp)
    obtain ⟨k, v⟩ := p
    refine ih ?_ fun q hq => hd q (by simp [hq])
    cases v with
    | none => exact forall_set ht hp
    | bool b =>
      cases b with
      | true => exact forall_set ht (hQ _ _ hp)
      | false => exact ht
    | text s => exact forall_set ht hp

/-- A call whose jobs are all refused: all names are options, all texts are plain values, and the model in the template is not understood. -/
def Refused (P : Parser) (m : Str) (c : SweepCall × List (PDict Str Val)) : Prop :=
  c.1.script ≠ [] ∧ Plain c.1.script ∧ (c.1.dirPrefix ≠ [] ∧ Plain c.1.dirPrefix ∧ c.1.dirPrefix.head? ≠ some '-') ∧ FineArgs c.1.template ∧
  (∀ p ∈ c.1.template, (∃ o ∈ P, o.name = p.1) ∧ (p.2 ≠ .none → isValue p.2.str = true)) ∧
  PDict.get? c.1.template "shooting_model".toList = some (.text m) ∧
  ∀ d ∈ c.2, FineArgs d ∧ (PDict.keys d).Nodup ∧ PDict.get? d "shooting_model".toList = none ∧ ∀ p ∈ d, (∃ o ∈ P, o.name = p.1) ∧ (p.2 ≠ .none → isValue p.2.str = true)

instance (P : Parser) (m : Str) (c : SweepCall × List (PDict Str Val)) : Decidable (Refused P m c) := by unfold Refused; infer_instance

/-- **C83** is false of the spiral experiments: with one of the models `universal`, `dampened_updown`, `2nd_order` or `general_updown`, which the parser of the experiments accepts, every line
given to `os.system` starts a `spiral.py` that ends with a usage error. -/
theorem C83_spiral_rejected (m : Str) (hm : m ∈ ["universal".toList, "dampened_updown".toList, "2nd_order".toList, "general_updown".toList]) (calls : List SweepCall)
    (hcalls : calls ∈ [spiralCalls m, spiralRnnCalls m]) (a : Settings) (path : Str) (gpu : Int) (hp : Plain path) (hb : Plain a.outputBase) (ha : a.shootingModel = m) (hf : a.fcn = none) :
    (∃ argv ns, parse (spiralDriver path) argv = .ok ns ∧ PDict.get? ns "shooting_model".toList = some (.str m)) ∧
    ∀ line ∈ commands a path gpu calls, ∃ device argv out, system line = some [⟨device, "python".toList :: "spiral.py".toList :: argv, out⟩] ∧ parse spiralParser argv = .usage := by
  have hw : ∀ m ∈ ["universal".toList, "dampened_updown".toList, "2nd_order".toList, "general_updown".toList], Plain m ∧ ¬ Understands spiralParser ("shooting_model".toList, .text m) ∧
      ∀ calls ∈ [spiralCalls m, spiralRnnCalls m], ∀ c ∈ combinations calls Sweep.fresh, c.1.script = "spiral.py".toList ∧ Refused spiralParser m c := by decide +kernel
  obtain ⟨hpm, hnu, hw⟩ := hw m hm
  have hwf : WellFormed spiralParser := (C83_parsers.1 _ (by simp)).1
  constructor
  · have hu : ∀ m ∈ ["universal".toList, "dampened_updown".toList, "2nd_order".toList, "general_updown".toList],
        asked ⟨"shooting_model".toList, .str, some ["updown_universal".toList, "universal".toList, "periodic".toList, "dampened_updown".toList, "simple".toList, "2nd_order".toList, "updown".toList,
          "general_updown".toList], .str "updown_universal".toList⟩ (.text m) = some (.str m) := by decide +kernel
    have hm4 : (⟨"shooting_model".toList, .str, some ["updown_universal".toList, "universal".toList, "periodic".toList, "dampened_updown".toList, "simple".toList, "2nd_order".toList,
        "updown".toList, "general_updown".toList], .str "updown_universal".toList⟩ : Opt) ∈ spiralDriver path := .tail _ (.tail _ (.tail _ (.tail _ (.head _))))
    obtain ⟨ns, h1, _, h3⟩ := C83_read (spiralDriver path) (C83_driver_parsers path).2.1.1 [("shooting_model".toList, .text m)] (by simp [PDict.keys]) (by
      intro p hp
      rw [List.mem_singleton.1 hp]
      exact ⟨_, hm4, rfl, by rw [hu m hm]; rfl⟩)
    refine ⟨_, ns, h1, ?_⟩
    have := h3 _ hm4
    rw [show PDict.get? ns "shooting_model".toList = _ from this, meant, PDict.get?_cons, if_pos rfl]
    exact hu m hm
  · intro line hl
    obtain ⟨c, hc, hl⟩ := List.mem_flatMap.1 hl
    obtain ⟨j, hj, rfl⟩ := List.mem_map.1 hl
    obtain ⟨hs, h1, h2, h3, h4, h5, h6, h7⟩ := hw calls hcalls c hc
    obtain ⟨h8, h9, h10, h11⟩ := h7 j.2 (mem_jobs hj)
    obtain ⟨hfine, hhead⟩ := fine_prefix h3 hb
    have hall : ∀ p ∈ runArgs (callSettings a c.1) c.1.template j.1 j.2, (∃ o ∈ spiralParser, o.name = p.1) ∧ (p.2 ≠ .none → isValue p.2.str = true) := by
      obtain ⟨⟨o, ho, hn, _⟩, o', ho', hn', _⟩ := C83_parsers.2.1
      refine forall_set (forall_set (forall_merge (fun k v h => ⟨h.1, fun h => absurd rfl h⟩) h5 h11) ?_) ?_
      · refine ⟨⟨o', ho', hn'⟩, fun _ => ?_⟩
        simp only [Val.str, outputDirectory, List.append_assoc]
        exact isValue_dir (b := c.1.dirPrefix ++ a.outputBase) hfine.1 hhead _
      · exact ⟨⟨o, ho, hn⟩, fun _ => isValue_decimal _⟩
    obtain ⟨argv, h12, h13⟩ := C83_refused spiralParser hwf (callSettings a c.1) c.1.script path gpu c.1.template j.2 j.1 h9 (fun p hp => .inl (hall p hp).1) (fun p hp => (hall p hp).2)
      ⟨"shooting_model".toList, .text m, by
        unfold jobOption
        rw [if_neg (by decide), if_neg (by decide), h10]
        exact h6, hnu⟩ ⟨h1, h2⟩ hp hfine (ha ▸ hpm) (by simp [callSettings, hf]) h4 h8
    exact ⟨_, argv, _, by rw [h12, hs], h13⟩

/-- The combinations depend only on what is swept. -/
def swept : List (PDict String (List Val)) → Sweep.Store Val → List (PDict String (List Val) × List (PDict Str Val))
  | [], _ => []
  | c :: cs, s => (c, (Sweep.sweep c s).swept.map fun d => d.map fun p => (p.1.toList, p.2)) :: swept cs (Sweep.sweep c s)

theorem swept_eq (cs : List SweepCall) (s : Sweep.Store Val) : (combinations cs s).map (fun c => (c.1.pars, c.2)) = swept (cs.map SweepCall.pars) s := by
  induction cs generalizing s with
  | nil => rfl
  | cons c cs ih =>
    rw [List.map_cons, swept, ← ih]
    rfl

/-- **C83** is false of the experiments that compare modes: their second and third sweep also go through the combinations of the sweeps before (see C26).  In the third one, which asks for the
numbers of particles `n`, there are also runs with 2 particles. -/
theorem C83_rnn_runs_more (m f : Str) :
    (combinations (spiralRnnCalls m) Sweep.fresh).map (fun c => c.2.length) = [4, 8, 20] ∧
    (spiralRnnCalls m).map (fun c => (c.pars.map fun p => p.2.length).foldl (· * ·) 1) = [4, 4, 12] ∧
    (combinations (mappingRnnCalls m f) Sweep.fresh).map (fun c => c.2.length) = [6, 12, 36] ∧
    (mappingRnnCalls m f).map (fun c => (c.pars.map fun p => p.2.length).foldl (· * ·) 1) = [6, 6, 24] ∧
    (∃ c ∈ combinations (spiralRnnCalls m) Sweep.fresh, PDict.get? c.1.pars "nr_of_particles" = some [num 15, num 25, num 50] ∧ ∃ d ∈ c.2, PDict.get? d "nr_of_particles".toList = some (num 2)) := by
  have h1 := swept_eq (spiralRnnCalls m) Sweep.fresh
  have h2 := swept_eq (mappingRnnCalls m f) Sweep.fresh
  rw [show (spiralRnnCalls m).map SweepCall.pars = [sweepOver [2] [16, 32, 64, 128], sweepOver [2] [16, 32, 64, 128], sweepOver [15, 25, 50] [16, 32, 64, 128]] from rfl] at h1
  rw [show (mappingRnnCalls m f).map SweepCall.pars = [sweepOver [2] [4, 8, 16, 32, 64, 128], sweepOver [2] [4, 8, 16, 32, 64, 128], sweepOver [2, 5, 15, 25] [4, 8, 16, 32, 64, 128]] from rfl] at h2
  refine ⟨?_, rfl, ?_, rfl, ?_⟩
  · have := congrArg (List.map fun c => c.2.length) h1
    rw [List.map_map] at this
    refine Eq.trans this ?_
    decide +kernel
  · have := congrArg (List.map fun c => c.2.length) h2
    rw [List.map_map] at this
    refine Eq.trans this ?_
    decide +kernel
  · have h : ∃ c ∈ swept [sweepOver [2] [16, 32, 64, 128], sweepOver [2] [16, 32, 64, 128], sweepOver [15, 25, 50] [16, 32, 64, 128]] Sweep.fresh,
        PDict.get? c.1 "nr_of_particles" = some [num 15, num 25, num 50] ∧ ∃ d ∈ c.2, PDict.get? d "nr_of_particles".toList = some (num 2) := by decide +kernel
    obtain ⟨c, hc, h⟩ := h
    rw [← h1] at hc
    obtain ⟨c, hc', rfl⟩ := List.mem_map.1 hc
    exact ⟨c, hc', h⟩

/-- **C83.** The experiments with one sweep ask for exactly all pairs of a number of particles and an inflation factor. -/
theorem C83_one_sweep (m f : Str) :
    (combinations (spiralCalls m) Sweep.fresh).map (fun c => c.2) =
      [[15, 25, 50].flatMap fun n : Nat => [16, 32, 64, 128].map fun i : Nat => [("nr_of_particles".toList, num n), ("inflation_factor".toList, num i)]] ∧
    (combinations (mappingCalls m f) Sweep.fresh).map (fun c => c.2) =
      [[2, 5, 15, 25].flatMap fun n : Nat => [4, 8, 16, 32, 64, 128].map fun i : Nat => [("nr_of_particles".toList, num n), ("inflation_factor".toList, num i)]] := by
  have h1 := congrArg (List.map Prod.snd) (swept_eq (spiralCalls m) Sweep.fresh)
  have h2 := congrArg (List.map Prod.snd) (swept_eq (mappingCalls m f) Sweep.fresh)
  rw [List.map_map] at h1 h2
  rw [show (spiralCalls m).map SweepCall.pars = [sweepOver [15, 25, 50] [16, 32, 64, 128]] from rfl] at h1
  rw [show (mappingCalls m f).map SweepCall.pars = [sweepOver [2, 5, 15, 25] [4, 8, 16, 32, 64, 128]] from rfl] at h2
  constructor
  · refine Eq.trans h1 ?_
    decide +kernel
  · refine Eq.trans h2 ?_
    decide +kernel

/-! ## Examples -/

/-- The value of an option after parsing. -/
def found (r : Exit Namespace) (k : Str) : Option Value :=
  match r with
  | .ok ns => PDict.get? ns k
  | _ => none

/-- A command line with a flag, an integer, a decimal number and a text. -/
def exampleOptions : PDict Str Val := [("viz".toList, .none), ("niters".toList, .text "17".toList), ("lr".toList, .text "1.5e-2".toList), ("seed".toList, .text "-3".toList), ("shooting_model".toList, .text "simple".toList)]

example : (PDict.keys exampleOptions).Nodup ∧ (∀ p ∈ exampleOptions, Understands spiralParser p) ∧
    ["lr", "seed", "viz", "batch_size"].map (fun k => found (parse spiralParser (makeArgList exampleOptions)) k.toList) =
      [some (.float 0.015), some (.int (-3)), some (.bool true), some (.int 100)] := by decide +kernel

/-- A misspelt name: the program ends with a usage error. -/
example : Foreign spiralParser "nr_of_partciles".toList ∧ parse spiralParser (makeArgList [("nr_of_partciles".toList, num 7)]) = .usage := by decide +kernel

/-- A value that is no number, and one that is no choice. -/
example : parse spiralParser (makeArgList [("niters".toList, .text "many".toList)]) = .usage ∧ parse spiralParser (makeArgList [("method".toList, .text "euler".toList)]) = .usage := by decide +kernel

/-- An abbreviation: the hypotheses of `C83_abbreviation` and of `C83_ambiguous`. -/
example : (∀ q ∈ spiralParser, "nr_of_particles".toList <+: q.name → q = ⟨"nr_of_particles".toList, .int, none, .int 25⟩) ∧
    (∀ q ∈ spiralParser, "infl".toList <+: q.name → q = ⟨"inflation_factor".toList, .int, none, .int 5⟩) ∧
    found (parse spiralParser ["--infl".toList, "9".toList]) "inflation_factor".toList = some (.int 9) ∧
    parse spiralParser ["--nr_of".toList, "9".toList] = .usage := by decide +kernel

/-- The settings of a run of the spiral experiments. -/
def exampleSettings : Settings := ⟨3, 2, "updown".toList, none, "results".toList⟩

example : Plain exampleSettings.outputBase ∧ ((commands exampleSettings "python3".toList 1 (spiralCalls "updown".toList)).length = 24) ∧
    ((commands exampleSettings "python3".toList 1 (spiralRnnCalls "updown".toList)).length = 64) := by decide +kernel

/-- A weighting experiment. -/
example : ∃ ns, parse (weightingDriver "python".toList) (makeArgList [("gpu".toList, num 1), ("sweep_updown".toList, .none)]) = .ok ns := by
  obtain ⟨ns, h, _⟩ := C83_read (weightingDriver "python".toList) (C83_driver_parsers _).2.2.1 [("gpu".toList, num 1), ("sweep_updown".toList, .none)] (by decide) (by decide +kernel)
  exact ⟨ns, h⟩

end Verif.Options
