import Verif.Solvers.Model
import Verif.Integrator.Props
import Verif.Options.Experiments

/-!
# C103: the integrator options of an experiment reach the solver
-/

namespace Verif.Solvers
open Verif Verif.Cli Verif.Options Verif.Integrator

variable {X : Type}

/-! ## Reading the options -/

theorem float_of {P : Parser} (hP : Sound P) {argv : List Str} {ns : Namespace} (h : parse P argv = .ok ns) {n : Str} {d : Value} (ho : (⟨n, .float, none, d⟩ : Opt) ∈ P) :
    ∃ x, PDict.get? ns n = some (.float x) := by
  obtain ⟨v, h1, h2⟩ := (C83_typed P hP argv ns h).2 _ ho
  cases v with
  | float x => exact ⟨x, h1⟩
  | bool b => exact h2.elim
  | int b => exact h2.elim
  | str b => exact h2.elim

theorem int_of {P : Parser} (hP : Sound P) {argv : List Str} {ns : Namespace} (h : parse P argv = .ok ns) {n : Str} {d : Value} (ho : (⟨n, .int, none, d⟩ : Opt) ∈ P) :
    ∃ x, PDict.get? ns n = some (.int x) := by
  obtain ⟨v, h1, h2⟩ := (C83_typed P hP argv ns h).2 _ ho
  cases v with
  | int x => exact ⟨x, h1⟩
  | bool b => exact h2.elim
  | float b => exact h2.elim
  | str b => exact h2.elim

theorem flag_of {P : Parser} (hP : Sound P) {argv : List Str} {ns : Namespace} (h : parse P argv = .ok ns) {n : Str} {d : Value} (ho : (⟨n, .flag, none, d⟩ : Opt) ∈ P) :
    ∃ x, PDict.get? ns n = some (.bool x) := by
  obtain ⟨v, h1, h2⟩ := (C83_typed P hP argv ns h).2 _ ho
  cases v with
  | bool x => exact ⟨x, h1⟩
  | int b => exact h2.elim
  | float b => exact h2.elim
  | str b => exact h2.elim

/-! ## The integrators -/

/-- The methods that the programs offer. -/
theorem method_cases {m : Str} (h : m ∈ ["dopri5".toList, "adams".toList, "rk4".toList]) :
    String.ofList m = "dopri5" ∨ String.ofList m = "adams" ∨ String.ofList m = "rk4" := by
  simp only [List.mem_cons, List.not_mem_nil, or_false] at h
  rcases h with rfl | rfl | rfl
  · exact .inl rfl
  · exact .inr (.inl rfl)
  · exact .inr (.inr rfl)

theorem setup_eq {m : String} (hm : m = "dopri5" ∨ m = "adams" ∨ m = "rk4") (adj : Bool) (s rtol atol : ℚ) (nr : Option Int) (iv : Option ℚ) :
    setupIntegrator m adj s rtol atol nr iv = .ok ⟨⟨"odeint", m, if m = "rk4" then [("step_size", s)] else [], nr, iv⟩, adj, rtol, atol⟩ := by
  rcases hm with rfl | rfl | rfl <;> rfl

/-- **C103.** `spiral.py`: every command line that the program accepts gives an integrator.  Every call of the library is one of the routine that `--adjoint` selects, with the method of `--method`, the
tolerances `1e-8` and `1e-12`, and, for `rk4`, the step size of `--stepsize`; the adaptive methods get no step size.  Without a positive number or interval of checkpoints there is one call for all
times; with one of them the times are integrated in pieces; with both every integration, beginning with that of the training data, is a `ValueError`. -/
theorem C103_spiral (argv : List Str) (ns : Namespace) (h : parse spiralParser argv = .ok ns) :
    ∃ m ∈ ["dopri5".toList, "adams".toList, "rk4".toList], ∃ (s iv : ℚ) (adj : Bool) (n : Int) (g : Generic),
      PDict.get? ns "method".toList = some (.str m) ∧ PDict.get? ns "stepsize".toList = some (.float s) ∧ PDict.get? ns "adjoint".toList = some (.bool adj) ∧
      PDict.get? ns "nr_of_checkpoints".toList = some (.int n) ∧ PDict.get? ns "checkpointing_time_interval".toList = some (.float iv) ∧
      spiralIntegrator ns = .ok g ∧
      ∀ (X : Type) (lib : Settings → Solver X ℚ) (anode : Option (X → X)) (x : X) (t : List ℚ), ∃ solve : Solver X ℚ,
        solve = lib ⟨adj, String.ofList m, 1 / 10 ^ 8, 1 / 10 ^ 12, if m = "rk4".toList then [("step_size", s)] else []⟩ ∧
        (n ≤ 0 → iv ≤ 0 → g.integrate lib anode x t = (solve x t).map some) ∧
        (0 < n → iv ≤ 0 → g.integrate lib anode x t = integrateCheckpointed solve (some n) none x t) ∧
        (n ≤ 0 → 0 < iv → g.integrate lib anode x t = integrateCheckpointed solve none (some iv) x t) ∧
        (0 < n → 0 < iv → g.integrate lib anode x t = .error .valueError) := by
  have hS : Sound spiralParser := C83_parsers.1 _ (by simp)
  obtain ⟨m, hm, e1⟩ := choice_of hS h (n := "method".toList) (l := ["dopri5".toList, "adams".toList, "rk4".toList]) (d := .str "rk4".toList) (by decide +kernel)
  obtain ⟨s, e2⟩ := float_of hS h (n := "stepsize".toList) (d := .float 0.05) (by decide +kernel)
  obtain ⟨adj, e3⟩ := flag_of hS h (n := "adjoint".toList) (d := .bool false) (by decide +kernel)
  obtain ⟨n, e4⟩ := int_of hS h (n := "nr_of_checkpoints".toList) (d := .int 0) (by decide +kernel)
  obtain ⟨iv, e5⟩ := float_of hS h (n := "checkpointing_time_interval".toList) (d := .float 0) (by decide +kernel)
  have hg : spiralIntegrator ns = .ok ⟨⟨"odeint", String.ofList m, if String.ofList m = "rk4" then [("step_size", s)] else [], if 0 < n then some n else none, if 0 < iv then some iv else none⟩, adj,
      1 / 10 ^ 8, 1 / 10 ^ 12⟩ := by
    rw [← setup_eq (method_cases hm)]
    unfold spiralIntegrator argFloat argInt argStr argFlag
    rw [e1, e2, e3, e4, e5]
    rfl
  have em : (String.ofList m = "rk4") = (m = "rk4".toList) := by
    simp only [List.mem_cons, List.not_mem_nil, or_false] at hm
    rcases hm with rfl | rfl | rfl <;> decide +kernel
  refine ⟨m, hm, s, iv, adj, n, _, e1, e2, e3, e4, e5, hg, fun X lib anode x t => ⟨_, rfl, ?_, ?_, ?_, ?_⟩⟩
  · intro h1 h2
    unfold Generic.integrate Generic.direct Generic.settings
    dsimp only
    rw [if_neg (not_lt.2 h1), if_neg (not_lt.2 h2), if_pos ⟨rfl, rfl⟩, if_pos rfl]
    simp only [em]
  · intro h1 h2
    unfold Generic.integrate Generic.direct Generic.settings
    dsimp only
    rw [if_pos h1, if_neg (not_lt.2 h2), if_neg (by simp), if_pos rfl]
    simp only [em]
  · intro h1 h2
    unfold Generic.integrate Generic.direct Generic.settings
    dsimp only
    rw [if_neg (not_lt.2 h1), if_pos h2, if_neg (by simp), if_pos rfl]
    simp only [em]
  · intro h1 h2
    unfold Generic.integrate
    dsimp only
    rw [if_pos h1, if_pos h2, if_neg (by simp)]
    unfold integrateCheckpointed
    rw [C12_rejected (some n) (some iv) t (.inr ⟨nofun, nofun⟩)]
    rfl

/-- A command line that `spiral.py` accepts. -/
example : ∃ ns, parse spiralParser ["--method".toList, "rk4".toList, "--stepsize".toList, "0.1".toList, "--adjoint".toList, "--nr_of_checkpoints=3".toList] = .ok ns ∧
    PDict.get? ns "stepsize".toList = some (.float (1 / 10)) ∧ PDict.get? ns "adjoint".toList = some (.bool true) ∧ PDict.get? ns "nr_of_checkpoints".toList = some (.int 3) ∧
    (spiralIntegrator ns).map Generic.settings = .ok ⟨true, "rk4", 1 / 10 ^ 8, 1 / 10 ^ 12, [("step_size", 1 / 10)]⟩ :=
  ⟨_, by rfl, by decide +kernel, by decide +kernel, by decide +kernel, by decide +kernel⟩

/-- **C103.** `spiral.py`: checkpoints do not change the result.  If two accepted command lines have the same method, step size and choice of the adjoint method, neither of them asks for both kinds of
checkpoints, and the library follows a flow with the settings of the command lines, the integrators of both return the same values at increasing times, one for every time. -/
theorem C103_spiral_checkpoints (argv argv' : List Str) (ns ns' : Namespace) (h : parse spiralParser argv = .ok ns) (h' : parse spiralParser argv' = .ok ns')
    (hm : PDict.get? ns' "method".toList = PDict.get? ns "method".toList) (hs : PDict.get? ns' "stepsize".toList = PDict.get? ns "stepsize".toList)
    (ha : PDict.get? ns' "adjoint".toList = PDict.get? ns "adjoint".toList) (n n' : Int) (iv iv' : ℚ)
    (hn : PDict.get? ns "nr_of_checkpoints".toList = some (.int n)) (hn' : PDict.get? ns' "nr_of_checkpoints".toList = some (.int n'))
    (hv : PDict.get? ns "checkpointing_time_interval".toList = some (.float iv)) (hv' : PDict.get? ns' "checkpointing_time_interval".toList = some (.float iv'))
    (hb : n ≤ 0 ∨ iv ≤ 0) (hb' : n' ≤ 0 ∨ iv' ≤ 0) (lib : Settings → Solver X ℚ) (anode : Option (X → X)) (φ : Settings → ℚ → ℚ → X → X) (hφ : ∀ c, IsFlow (φ c)) (hl : ∀ c, SolvesFlow (φ c) (lib c))
    (x : X) (t : List ℚ) (ht : t.Pairwise (· < ·)) (h2 : 2 ≤ t.length) :
    ∃ g g' rows, spiralIntegrator ns = .ok g ∧ spiralIntegrator ns' = .ok g' ∧ g.integrate lib anode x t = .ok (some rows) ∧ g'.integrate lib anode x t = .ok (some rows) ∧
      rows.length = t.length := by
  obtain ⟨m, -, s, iv1, adj, n1, g, a1, a2, a3, a4, a5, a6, a7⟩ := C103_spiral argv ns h
  obtain ⟨m', -, s', iv1', adj', n1', g', b1, b2, b3, b4, b5, b6, b7⟩ := C103_spiral argv' ns' h'
  obtain rfl : n1 = n := by rw [a4] at hn; injection hn with e; injection e
  obtain rfl : n1' = n' := by rw [b4] at hn'; injection hn' with e; injection e
  obtain rfl : iv1 = iv := by rw [a5] at hv; injection hv with e; injection e
  obtain rfl : iv1' = iv' := by rw [b5] at hv'; injection hv' with e; injection e
  obtain rfl : m' = m := by rw [a1, b1] at hm; injection hm with e; injection e
  obtain rfl : s' = s := by rw [a2, b2] at hs; injection hs with e; injection e
  obtain rfl : adj' = adj := by rw [a3, b3] at ha; injection ha with e; injection e
  obtain ⟨solve, q0, q1, q2, q3, -⟩ := a7 X lib anode x t
  obtain ⟨solve', r0, r1, r2, r3, -⟩ := b7 X lib anode x t
  obtain rfl : solve' = solve := by rw [q0, r0]
  obtain ⟨ψ, hψ⟩ : ∃ ψ, ψ = φ ⟨adj', String.ofList m', 1 / 10 ^ 8, 1 / 10 ^ 12, if m' = "rk4".toList then [("step_size", s')] else []⟩ := ⟨_, rfl⟩
  have f1 : IsFlow ψ := hψ ▸ hφ _
  have f2 : SolvesFlow ψ solve' := by rw [q0, hψ]; exact hl _
  obtain ⟨a, ts, rfl⟩ : ∃ a ts, t = a :: ts := by
    cases t with
    | nil => cases h2
    | cons a ts => exact ⟨a, ts, rfl⟩
  have key : ∀ (k : Int) (v : ℚ) (r : Py (Option (List X))), k ≤ 0 ∨ v ≤ 0 → (k ≤ 0 → v ≤ 0 → r = (solve' x (a :: ts)).map some) →
      (0 < k → v ≤ 0 → r = integrateCheckpointed solve' (some k) none x (a :: ts)) → (k ≤ 0 → 0 < v → r = integrateCheckpointed solve' none (some v) x (a :: ts)) →
      r = .ok (some ((a :: ts).map fun τ => ψ a τ x)) := by
    intro k v r hkv c1 c2 c3
    have hd : (solve' x (a :: ts)).map some = .ok (some ((a :: ts).map fun τ => ψ a τ x)) := by
      rw [f2 x a ts fun τ hτ => le_of_lt ((List.pairwise_cons.1 ht).1 τ hτ)]
      rfl
    by_cases hk : k ≤ 0
    · by_cases hv : v ≤ 0
      · rw [c1 hk hv, hd]
      · rw [c3 hk (not_le.1 hv), ← hd]
        have := (C11_checkpointing_is_transparent ⟨"odeint", "", [], none, some v⟩ rfl (.interval v (not_le.1 hv)) ψ f1 solve' id f2 x (a :: ts) ht h2).1
        exact this
    · have hv : v ≤ 0 := hkv.resolve_left hk
      rw [c2 (not_le.1 hk) hv, ← hd]
      have := (C11_checkpointing_is_transparent ⟨"odeint", "", [], some k, none⟩ rfl (.number k (not_le.1 hk).le) ψ f1 solve' id f2 x (a :: ts) ht h2).1
      exact this
  exact ⟨g, g', _, a6, b6, key n1 iv1 _ hb q1 q2 q3, key n1' iv1' _ hb' r1 r2 r3, by simp⟩

/-- Two such command lines and a flow (that of the equation `x' = 1`, exactly solved). -/
example : ∃ ns ns', parse spiralParser ["--nr_of_checkpoints".toList, "2".toList] = .ok ns ∧ parse spiralParser ["--checkpointing_time_interval=0.5".toList] = .ok ns' ∧
    PDict.get? ns' "method".toList = PDict.get? ns "method".toList ∧ PDict.get? ns' "stepsize".toList = PDict.get? ns "stepsize".toList ∧
    PDict.get? ns' "adjoint".toList = PDict.get? ns "adjoint".toList ∧
    IsFlow (fun (a b x : ℚ) => x + (b - a)) ∧ SolvesFlow (fun (a b x : ℚ) => x + (b - a)) (fun x t => .ok (t.map fun τ => x + (τ - t.headD 0))) := by
  refine ⟨_, _, by rfl, by rfl, by decide +kernel, by decide +kernel, by decide +kernel, ⟨fun a x => ?_, fun a b c x _ _ => ?_⟩, fun x a ts _ => rfl⟩
  · show x + (a - a) = x
    ring
  · show x + (b - a) + (c - b) = x + (c - a)
    ring

/-- **C103.** `balls.py`, `rot.py`, `cc.py`: every command line that the program accepts gives an integrator, and every integration is one call of `odeint` (never the adjoint routine) for all times, with the
method of `--method`, the tolerances `1e-3` and `1e-5`, and, for `rk4`, the step size of `--stepsize`. -/
theorem C103_video (P : Parser) (hP : P ∈ [circlesParser, rotatedParser, ballsParser]) (argv : List Str) (ns : Namespace) (h : parse P argv = .ok ns) :
    ∃ m ∈ ["dopri5".toList, "adams".toList, "rk4".toList], ∃ (s : ℚ) (g : Generic),
      PDict.get? ns "method".toList = some (.str m) ∧ PDict.get? ns "stepsize".toList = some (.float s) ∧ videoIntegrator ns = .ok g ∧
      ∀ (X : Type) (lib : Settings → Solver X ℚ) (anode : Option (X → X)) (x : X) (t : List ℚ),
        g.integrate lib anode x t = (lib ⟨false, String.ofList m, 1 / 1000, 1 / 100000, if m = "rk4".toList then [("step_size", s)] else []⟩ x t).map some := by
  have hS : Sound P := C83_parsers.1 _ (by simp only [List.mem_cons, List.not_mem_nil, or_false] at hP ⊢; tauto)
  obtain ⟨m, hm, e1⟩ := choice_of hS h (n := "method".toList) (l := ["dopri5".toList, "adams".toList, "rk4".toList]) (d := .str "rk4".toList) (by clear h hS; revert P; decide +kernel)
  obtain ⟨s, e2⟩ := float_of hS h (n := "stepsize".toList) (d := .float 0.05) (by clear h hS; revert P; decide +kernel)
  have hg : videoIntegrator ns = .ok ⟨⟨"odeint", String.ofList m, if String.ofList m = "rk4" then [("step_size", s)] else [], none, none⟩, false, 1 / 1000, 1 / 100000⟩ := by
    rw [← setup_eq (method_cases hm)]
    unfold videoIntegrator argFloat argStr
    rw [e1, e2]
    rfl
  have em : (String.ofList m = "rk4") = (m = "rk4".toList) := by
    simp only [List.mem_cons, List.not_mem_nil, or_false] at hm
    rcases hm with rfl | rfl | rfl <;> decide +kernel
  refine ⟨m, hm, s, _, e1, e2, hg, fun X lib anode x t => ?_⟩
  unfold Generic.integrate Generic.direct Generic.settings
  dsimp only
  rw [if_pos ⟨rfl, rfl⟩, if_pos rfl]
  simp only [em]

/-- A command line of `balls.py`. -/
example : ∃ ns, parse ballsParser ["--method".toList, "dopri5".toList] = .ok ns ∧ (videoIntegrator ns).map Generic.settings = .ok ⟨false, "dopri5", 1 / 1000, 1 / 100000, []⟩ :=
  ⟨_, by rfl, by decide +kernel⟩

/-- **C103**, the part that is true of `simple_functional_mapping_example.py`: every command line that the program accepts gives an integrator for the shooting block; every integration is one call for all
times with the method of `--method`, the tolerances `1e-3` and `1e-5` and the step size of `--stepsize` (also for the adaptive methods, that do not use it).  The neural ODE gets the method too, and the
tolerances `1e-8` and `1e-12`.  Missing: the step size of the neural ODE and the flag `--adjoint`. -/
theorem C103_mapping_partial (argv : List Str) (ns : Namespace) (h : parse mappingParser argv = .ok ns) :
    ∃ m ∈ ["dopri5".toList, "adams".toList, "rk4".toList], ∃ (s : ℚ) (g g' : Generic),
      PDict.get? ns "method".toList = some (.str m) ∧ PDict.get? ns "stepsize".toList = some (.float s) ∧ mappingIntegrator ns = .ok g ∧ neuralOdeIntegrator ns = .ok g' ∧
      ∀ (X : Type) (lib : Settings → Solver X ℚ) (anode : Option (X → X)) (x : X) (t : List ℚ),
        g.integrate lib anode x t = (lib ⟨false, String.ofList m, 1 / 1000, 1 / 100000, [("step_size", s)]⟩ x t).map some ∧
        g'.integrate lib anode x t = (lib ⟨false, String.ofList m, 1 / 10 ^ 8, 1 / 10 ^ 12, if m = "rk4".toList then [("step_size", 1 / 2)] else []⟩ x t).map some := by
  have hS : Sound mappingParser := C83_parsers.1 _ (by simp)
  obtain ⟨m, hm, e1⟩ := choice_of hS h (n := "method".toList) (l := ["dopri5".toList, "adams".toList, "rk4".toList]) (d := .str "rk4".toList) (by decide +kernel)
  obtain ⟨s, e2⟩ := float_of hS h (n := "stepsize".toList) (d := .float 0.1) (by decide +kernel)
  have hg : mappingIntegrator ns = blockIntegrator (String.ofList m) (some [("step_size", s)]) := by
    unfold mappingIntegrator argFloat argStr
    rw [e1, e2]
    rfl
  have hg' : neuralOdeIntegrator ns = generic (some "odeint") (some (String.ofList m)) false none stepDefault (1 / 10 ^ 8) (1 / 10 ^ 12) none none := by
    unfold neuralOdeIntegrator argStr
    rw [e1]
    rfl
  have hm' := hm
  simp only [List.mem_cons, List.not_mem_nil, or_false] at hm'
  rcases hm' with rfl | rfl | rfl
  · exact ⟨_, hm, s, _, _, e1, e2, hg, hg', fun X lib anode x t => ⟨rfl, rfl⟩⟩
  · exact ⟨_, hm, s, _, _, e1, e2, hg, hg', fun X lib anode x t => ⟨rfl, rfl⟩⟩
  · exact ⟨_, hm, s, _, _, e1, e2, hg, hg', fun X lib anode x t => ⟨rfl, rfl⟩⟩

/-- **C103** fails for the neural ODE: whatever `--stepsize` asks for, the neural ODE is integrated with the step size 0.5 of the constructor, so the two methods that the program compares run with different step
sizes unless 0.5 was asked for. -/
theorem C103_neural_ode_step (ns : Namespace) (hm : PDict.get? ns "method".toList = some (.str "rk4".toList)) (s : ℚ)
    (hs : PDict.get? ns "stepsize".toList = some (.float s)) :
    ∃ g g', mappingIntegrator ns = .ok g ∧ neuralOdeIntegrator ns = .ok g' ∧ g.settings.options.get? "step_size" = some s ∧ g'.settings.options.get? "step_size" = some (1 / 2) ∧
      (s ≠ 1 / 2 → g.settings.options.get? "step_size" ≠ g'.settings.options.get? "step_size") := by
  have hg : mappingIntegrator ns = blockIntegrator "rk4" (some [("step_size", s)]) := by
    unfold mappingIntegrator argFloat argStr
    rw [hm, hs]
    rfl
  have hg' : neuralOdeIntegrator ns = generic (some "odeint") (some "rk4") false none stepDefault (1 / 10 ^ 8) (1 / 10 ^ 12) none none := by
    unfold neuralOdeIntegrator argStr
    rw [hm]
    rfl
  exact ⟨_, _, hg, hg', rfl, rfl, fun hne e => hne (Option.some.inj e)⟩

/-- **C103** fails for the flag `--adjoint` of the functional mapping program: it is accepted, but nothing is integrated with the adjoint routine. -/
theorem C103_adjoint_ignored (argv : List Str) (ns : Namespace) (h : parse mappingParser argv = .ok ns) :
    (∃ b, PDict.get? ns "adjoint".toList = some (.bool b)) ∧ ∃ g g', mappingIntegrator ns = .ok g ∧ neuralOdeIntegrator ns = .ok g' ∧ g.settings.adjoint = false ∧ g'.settings.adjoint = false := by
  have hS : Sound mappingParser := C83_parsers.1 _ (by simp)
  refine ⟨flag_of hS h (n := "adjoint".toList) (d := .bool false) (by decide +kernel), ?_⟩
  obtain ⟨m, hm, s, g, g', e1, e2, hg, hg', -⟩ := C103_mapping_partial argv ns h
  refine ⟨g, g', hg, hg', ?_, ?_⟩
  · unfold mappingIntegrator argFloat argStr at hg
    rw [e1, e2] at hg
    simp only [List.mem_cons, List.not_mem_nil, or_false] at hm
    rcases hm with rfl | rfl | rfl
    all_goals
      injection hg with hg
      rw [← hg]
      rfl
  · unfold neuralOdeIntegrator argStr at hg'
    rw [e1] at hg'
    simp only [List.mem_cons, List.not_mem_nil, or_false] at hm
    rcases hm with rfl | rfl | rfl
    all_goals
      injection hg' with hg'
      rw [← hg']
      rfl

/-- A command line with both: the step size 0.1 and the adjoint method were asked for, but not used. -/
example : ∃ ns, parse mappingParser ["--adjoint".toList, "--use_neural_ode".toList, "--stepsize".toList, "0.1".toList] = .ok ns ∧ PDict.get? ns "adjoint".toList = some (.bool true) ∧
    PDict.get? ns "stepsize".toList = some (.float (1 / 10)) ∧ PDict.get? ns "method".toList = some (.str "rk4".toList) ∧
    (neuralOdeIntegrator ns).map Generic.settings = .ok ⟨false, "rk4", 1 / 10 ^ 8, 1 / 10 ^ 12, [("step_size", 1 / 2)]⟩ ∧
    (mappingIntegrator ns).map Generic.settings = .ok ⟨false, "rk4", 1 / 1000, 1 / 100000, [("step_size", 1 / 10)]⟩ :=
  ⟨_, by rfl, by decide +kernel, by decide +kernel, by decide +kernel, by decide +kernel, by decide +kernel⟩

/-- **C103.** The default integrator of the convolutional classifier: `rk4` with step size 0.1, also where the constructor has another default. -/
theorem C103_resnet_default (lib : Settings → Solver X ℚ) (anode : Option (X → X)) (x : X) (t : List ℚ) :
    ∃ g, resNetIntegrator = .ok g ∧ g.integrate lib anode x t = (lib ⟨false, "rk4", 1 / 1000, 1 / 100000, [("step_size", 1 / 10)]⟩ x t).map some := ⟨_, rfl, rfl⟩

/-! ## The library `anode` -/

theorem runIntervals_some {T : Type} [LinearOrder T] {solve : Solver X T} (h : ∀ x t r, solve x t ≠ .ok r) (x : X) (ivs : List (Interval T)) (rows : List X) :
    runIntervals solve x ivs ≠ .ok (some rows) := by
  unfold runIntervals
  cases ivs with
  | nil => nofun
  | cons iv ivs =>
    rw [List.foldlM_cons]
    unfold checkpointStep
    cases e : solve x iv.1 with
    | ok r => exact absurd e (h _ _ _)
    | error e =>
      intro h'
      cases h'

/-- **C103.** An integrator for the library `anode` can be created, but without that package, which is not part of the repository, no integration returns a value, whatever the checkpoints and the times are;
without checkpoints every integration is an error. -/
theorem C103_anode_missing (name : Option String) (hname : name = none ∨ name = some "rk2" ∨ name = some "rk4") (adj : Bool) (options : Option (PDict String ℚ)) (step : Option ℚ) (rtol atol : ℚ)
    (nr : Option Int) (iv : Option ℚ) (lib : Settings → Solver X ℚ) :
    ∃ g, generic (some "anode") name adj options step rtol atol nr iv = .ok g ∧ (∀ x t rows, g.integrate lib none x t ≠ .ok (some rows)) ∧
      (nr = none → iv = none → ∀ x t, ∃ e, g.integrate lib none x t = .error e) := by
  have hnever : ∀ (x : X) t r, anodeOf (none : Option (X → X)) x t ≠ .ok r := by
    intro x t r
    unfold anodeOf
    dsimp only
    cases Integrator.anodeSolver (id : X → X) x t <;> nofun
  obtain ⟨c, hc⟩ := (C13_accepts_iff (some "anode") name options step nr iv).2 (.inr ⟨rfl, by
    rcases hname with h | h | h
    · exact .inl h
    · exact .inr ⟨_, by simp, h⟩
    · exact .inr ⟨_, by simp, h⟩⟩)
  have hcl : c.library = "anode" := (C13_options _ _ _ _ _ _ _ hc).1 _ rfl
  have hck : c.nrCheckpoints = nr ∧ c.interval = iv := by
    unfold Integrator.construct at hc
    dsimp only at hc
    split at hc
    · cases hc
    · split at hc
      · cases hc
      · cases hc
        exact ⟨rfl, rfl⟩
  have hd : Generic.direct ⟨c, adj, rtol, atol⟩ lib (none : Option (X → X)) = anodeOf none := by
    unfold Generic.direct
    rw [if_neg (by rw [hcl]; decide)]
  refine ⟨⟨c, adj, rtol, atol⟩, by unfold generic; rw [hc]; rfl, ?_, ?_⟩
  · intro x t rows
    unfold Generic.integrate
    rw [hd]
    split
    · cases e : anodeOf (none : Option (X → X)) x t with
      | ok r => exact absurd e (hnever _ _ _)
      | error e => nofun
    · unfold integrateCheckpointed
      cases createIntervals c.nrCheckpoints c.interval t with
      | error e => nofun
      | ok ivs => exact runIntervals_some hnever x ivs rows
  · rintro rfl rfl x t
    unfold Generic.integrate
    rw [hd, if_pos hck]
    cases e : anodeOf (none : Option (X → X)) x t with
    | ok r => exact absurd e (hnever _ _ _)
    | error er => exact ⟨er, rfl⟩

/-- With the package the integration over a unit interval works. -/
example : ∃ g, generic (some "anode") none false none stepDefault 0 0 none none = .ok g ∧ g.integrate (fun _ _ _ => .error .runtimeError) (some fun x : Nat => x + 1) 4 [0, 1] = .ok (some [5]) :=
  ⟨_, rfl, by decide +kernel⟩

end Verif.Solvers
