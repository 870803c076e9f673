import Verif.Block.Lemmas
import Verif.Assembly.Props
import Verif.Concat.Props
import Verif.Dicts.Props

/-!
# C39 (parameters exist after the first pass), C40 (integration times), C41 (block names)
-/

namespace Verif.Block
open Verif

variable {α T Θ R : Type}

/-! ## Examples: blocks over the integers -/

/-- A block whose integration adds the time to every number. -/
def demo (name : String) (conc : Bool) : Cfg ℤ ℤ Unit Unit where
  name := name
  concatenate := conc
  concatDim := 2
  enlargementDims := some [2]
  enlarge := true
  keepZero := false
  initialData := fun x => .ok [("q1", x)]
  outKey := "q1"
  solve := fun _ _ _ x ts => .ok (some (ts.map fun t => x.map (· + t)))
  mkState := fun _ _ _ n => List.replicate n 5
  mkCostate := fun _ _ _ n => List.replicate n 6

def demoArgs (w : Nat) : Args ℤ ℤ where
  integrand := true
  integrandName := false
  maxTime := none
  freeRnn := false
  freeTime := false
  freeSteps := 0
  state := some [("q1", ⟨[1, 1, w], List.replicate w 1⟩)]
  like := fun t => { t with data := t.data.map (fun _ => 2) }
  objects := []
  integrandNames := ["nn.w"]

/-- A new block with state width `w`. -/
def demoBlock (w : Nat) : St ℤ ℤ Unit :=
  ⟨true, some [0, 1], none, some [("q1", ⟨[1, 1, w], List.replicate w 1⟩)], some [("p_q1", ⟨[1, 1, w], List.replicate w 2⟩)],
    none, none, [("q1", .state "q1"), ("p_q1", .costate "p_q1"), ("nn__w", .integrand "nn.w")], 2, ()⟩

example : construct (demo "a" true) (demoArgs 1) () = .ok (demoBlock 1) := by rfl

/-- A data tensor. -/
def demoX : Inp ℤ := ⟨some ⟨[1, 1, 1], [7]⟩, none, none, none⟩

/-- What a block "a" returns. -/
def demoPass : Inp ℤ :=
  ⟨none, some [("a", [("q1", ⟨[1, 1, 1], [2]⟩)])], some [("a", [("p_q1", ⟨[1, 1, 1], [3]⟩)])], some [("a", [("q1", ⟨[1, 1, 1], [8]⟩)])]⟩

example : ∃ o, (forward (demo "a" true) () demoX (demoBlock 1)).2 = .ok o ∧
    (⟨none, some o.state, some o.costate, some o.data⟩ : Inp ℤ) = demoPass := ⟨_, rfl, rfl⟩

/-! ## C39 -/

/-- C39: a new block has not been executed. -/
theorem C39_new [OfNat T 0] [OfNat T 1] (cfg : Cfg α T Θ R) (a : Args α T) (th : Θ) (s : St α T Θ)
    (h : construct cfg a th = .ok s) : parameters s = .error .valueError ∧ s.enlState = none ∧ s.enlCostate = none := by
  unfold construct at h
  split at h
  · cases h
  split at h
  · cases h
  split at h
  · cases h
  split at h
  · cases h
  dsimp only at h
  revert h
  generalize (if (a.freeRnn || a.freeTime) = true then _ else _ : Py (PDict String Ref)) = r1
  rcases r1 with e | reg
  · intro h; cases h
  simp only [bind, Except.bind]
  generalize List.foldlM (m := Except Err) (fun reg (p : String × Ref) => register reg p.1 p.2) reg _ = r2
  rcases r2 with e | reg'
  · intro h; cases h
  intro h
  cases h
  exact ⟨rfl, rfl, rfl⟩

/-- C39: in every history, asking a block for its parameters raises a `ValueError` exactly as long as no forward pass succeeded; then
it returns the registered parameters. -/
theorem C39_parameters_iff [Zero α] [OfNat T 0] (cfg : Cfg α T Θ R) (s : St α T Θ) (hs : s.notYet = true) (ops : List (Op α T Θ R)) :
    (parameters (after cfg s ops) = .error .valueError ↔ ¬ SomeSuccess cfg s ops) ∧
      (parameters (after cfg s ops) = .ok ((after cfg s ops).reg.map Prod.snd) ↔ SomeSuccess cfg s ops) := by
  have h := after_notYet cfg s ops
  rw [hs] at h
  simp only [Bool.true_eq_false, false_or] at h
  unfold parameters
  rw [← h]
  cases (after cfg s ops).notYet
  · simp
  · simp

/-- A failing pass (neither data nor pass-through), then a successful one. -/
example : (after (demo "a" true) (demoBlock 1) [.forward () ⟨none, none, none, none⟩]).notYet = true ∧
    (after (demo "a" true) (demoBlock 1) [.forward () ⟨none, none, none, none⟩, .setTime 3, .forward () demoX]).notYet = false := ⟨by rfl, by rfl⟩

/-- C39: after a successful pass, whatever happens later, the registered parameters stay the same objects, and names, number and
positions of the enlargement parameters stay; their values can only change by training. -/
theorem C39_stay [Zero α] [OfNat T 0] (cfg : Cfg α T Θ R) (s : St α T Θ) (r : R) (i : Inp α) (o : Out α)
    (ho : (forward cfg r i s).2 = .ok o) (ops : List (Op α T Θ R)) :
    parameters (after cfg (forward cfg r i s).1 ops) = parameters (forward cfg r i s).1 ∧
      skeleton (after cfg (forward cfg r i s).1 ops).enlState = skeleton (forward cfg r i s).1.enlState ∧
      skeleton (after cfg (forward cfg r i s).1 ops).enlCostate = skeleton (forward cfg r i s).1.enlCostate ∧
      ((∀ o ∈ ops, NoTrain o) → (after cfg (forward cfg r i s).1 ops).enlState = (forward cfg r i s).1.enlState ∧
        (after cfg (forward cfg r i s).1 ops).enlCostate = (forward cfg r i s).1.enlCostate) := by
  have hn := (forward_same cfg r i s).2.1 o ho
  obtain ⟨h1, h2, h3, h4⟩ := after_enl cfg (forward cfg r i s).1 hn ops
  refine ⟨?_, h2, h3, h4⟩
  unfold parameters
  rw [h1, hn, (after_notYet cfg _ ops).2 (.inl hn)]

example : ((forward (demo "b" true) () demoPass (demoBlock 2)).1.enlState, (parameters (forward (demo "b" true) () demoPass (demoBlock 2)).1)) =
    (some [("a", [("q1", some ([5], [0, 0, 1]))])], .ok [.state "q1", .costate "p_q1", .integrand "nn.w", .enlState "a" "q1", .enlCostate "a" "p_q1"]) := by rfl

/-- C39: a pass creates enlargement parameters only if it is given pass-through states and no pass has succeeded before; the new
parameters are registered. -/
theorem C39_created_only_by_first [Zero α] (cfg : Cfg α T Θ R) (s : St α T Θ) (r : R) (i : Inp α)
    (h : ¬ SameEnl s (forward cfg r i s).1) : s.notYet = true ∧ i.state.isSome = true ∧ i.costate.isSome = true ∧ cfg.enlarge = true := by
  by_contra hc
  apply h
  cases hn : s.notYet with
  | false => exact (forward_same cfg r i s).2.2.2 hn
  | true =>
    have hpt : (passThrough cfg r i.state i.costate s).1 = s := by
      unfold passThrough
      cases hs : i.state with
      | none => rfl
      | some ps =>
        cases hcs : i.costate with
        | none => rfl
        | some pc =>
          dsimp only
          rw [if_neg fun he => hc ⟨hn, by rw [hs]; rfl, by rw [hcs]; rfl, he⟩]
    unfold forward
    split
    · exact .refl s
    split
    · rename_i hp
      rw [hp] at hpt
      rw [show _ = s from hpt]
      exact .refl s
    rename_i s1 ps pc hp
    rw [hp] at hpt
    rw [show s1 = s from hpt]
    split
    · exact .refl s
    rename_i data pad _
    have hi := (initial_same cfg data ps pc pad s).2.1
    split
    · rename_i hi'
      rw [hi'] at hi
      exact hi
    · rename_i hi'
      rw [hi'] at hi
      split
      · exact hi
      · exact ⟨hi.1, hi.2, hi.3⟩

theorem registerAll_get (l : List (String × Ref)) (reg reg' : PDict String Ref) (h : registerAll reg l = (reg', .ok ())) :
    (∀ p ∈ l, ∃ q ∈ l, q.1 = p.1 ∧ PDict.get? reg' p.1 = some q.2) ∧ (∀ n, n ∉ l.map Prod.fst → PDict.get? reg' n = PDict.get? reg n) := by
  induction l generalizing reg with
  | nil =>
    cases h
    exact ⟨fun p hp => (by cases hp), fun _ _ => rfl⟩
  | cons p l ih =>
    unfold registerAll at h
    cases hr : register reg p.1 p.2 with
    | error e => rw [hr] at h; cases h
    | ok reg1 =>
      rw [hr] at h
      obtain ⟨h1, h2⟩ := ih reg1 h
      have hreg : reg1 = reg.set p.1 p.2 := by
        unfold register at hr
        split at hr
        · cases hr
        · cases hr; rfl
      have hlook : ∀ n, n ∉ l.map Prod.fst → PDict.get? reg' n = if p.1 = n then some p.2 else PDict.get? reg n := by
        intro n hn
        rw [h2 n hn, hreg, PDict.get?_set]
      constructor
      · intro q hq
        by_cases hm : q.1 ∈ l.map Prod.fst
        · obtain ⟨q', hq', he⟩ := List.mem_map.1 hm
          obtain ⟨x, hx, hx1, hx2⟩ := h1 q' hq'
          exact ⟨x, List.mem_cons_of_mem _ hx, hx1.trans he, by rw [← he]; exact hx2⟩
        · rcases List.mem_cons.1 hq with rfl | hq
          · exact ⟨q, List.mem_cons_self .., rfl, by rw [hlook _ hm, if_pos rfl]⟩
          · exact absurd (List.mem_map_of_mem hq) hm
      · intro n hn
        simp only [List.map_cons, List.mem_cons, not_or] at hn
        rw [hlook n hn.2, if_neg fun hc => hn.1 hc.symm]

theorem mem_enlNames (ref : String → String → Ref) (e : Enl α) (n : String) (x : Ref) :
    (n, x) ∈ enlNames ref e ↔ ∃ b ∈ e.getD [], ∃ p ∈ b.2, p.2.isSome = true ∧ n = "pt_enlarge_" ++ p.1 ∧ x = ref b.1 p.1 := by
  unfold enlNames
  simp only [List.mem_flatMap, List.mem_filterMap, Option.map_eq_some_iff, Prod.mk.injEq]
  constructor
  · rintro ⟨b, hb, p, hp, y, hy, h1, h2⟩
    exact ⟨b, hb, p, hp, by rw [hy]; rfl, h1.symm, h2.symm⟩
  · rintro ⟨b, hb, p, hp, hs, h1, h2⟩
    obtain ⟨y, hy⟩ := Option.isSome_iff_exists.1 hs
    exact ⟨b, hb, p, hp, y, hy, h1.symm, h2.symm⟩

theorem getOrCreate_registered (cfg : Cfg α T Θ R) (r : R) (ps pc : TDicts α) (s s' : St α T Θ) (hn : s.notYet = true)
    (h : getOrCreate cfg r ps pc s = (s', .ok ())) :
    registerAll s.reg (enlNames .enlState s'.enlState ++ enlNames .enlCostate s'.enlCostate) = (s'.reg, .ok ()) := by
  unfold getOrCreate at h
  rw [if_pos hn] at h
  split at h
  · cases h
  split at h
  · cases h
  rename_i es ec _
  cases hre : registerEnl cfg.keepZero es ec s.reg with
  | mk reg res =>
    rw [hre] at h
    cases res with
    | error e => cases h
    | ok u =>
      cases h
      unfold registerEnl at hre
      split at hre
      · cases hre
      exact hre

/-- C39: when enlargement parameters are created, each of them has a name; under this name one of the new parameters for the same key
is registered.  All other registered names keep their objects. -/
theorem C39_registered (cfg : Cfg α T Θ R) (r : R) (ps pc : TDicts α) (s s' : St α T Θ) (hn : s.notYet = true)
    (h : getOrCreate cfg r ps pc s = (s', .ok ())) :
    (∀ b ∈ s'.enlState.getD [] ++ s'.enlCostate.getD [], ∀ p ∈ b.2, p.2.isSome = true →
      ∃ b', PDict.get? s'.reg ("pt_enlarge_" ++ p.1) = some (.enlState b' p.1) ∨
        PDict.get? s'.reg ("pt_enlarge_" ++ p.1) = some (.enlCostate b' p.1)) ∧
      (∀ n, (∀ k, n ≠ "pt_enlarge_" ++ k) → PDict.get? s'.reg n = PDict.get? s.reg n) := by
  obtain ⟨h1, h2⟩ := registerAll_get _ _ _ (getOrCreate_registered cfg r ps pc s s' hn h)
  constructor
  · intro b hb p hp hs
    have hm : ∃ x, ("pt_enlarge_" ++ p.1, x) ∈ enlNames .enlState s'.enlState ++ enlNames .enlCostate s'.enlCostate := by
      rcases List.mem_append.1 hb with hb | hb
      · exact ⟨_, List.mem_append_left _ ((mem_enlNames _ _ _ _).2 ⟨b, hb, p, hp, hs, rfl, rfl⟩)⟩
      · exact ⟨_, List.mem_append_right _ ((mem_enlNames _ _ _ _).2 ⟨b, hb, p, hp, hs, rfl, rfl⟩)⟩
    obtain ⟨x, hx⟩ := hm
    obtain ⟨⟨n, y⟩, hq, hqn, hq2⟩ := h1 _ hx
    dsimp only at hqn hq2
    rw [hq2]
    have key : ∀ k : String, n = "pt_enlarge_" ++ k → k = p.1 := by
      intro k hk
      have := hk.symm.trans hqn
      have h3 := congrArg String.toList this
      simp only [String.toList_append] at h3
      exact String.toList_inj.1 (List.append_cancel_left h3)
    rcases List.mem_append.1 hq with hq | hq
    · obtain ⟨b', _, p', _, _, e1, e2⟩ := (mem_enlNames _ _ _ _).1 hq
      exact ⟨b'.1, .inl (by rw [e2, key _ e1])⟩
    · obtain ⟨b', _, p', _, _, e1, e2⟩ := (mem_enlNames _ _ _ _).1 hq
      exact ⟨b'.1, .inr (by rw [e2, key _ e1])⟩
  · intro n hk
    refine h2 n fun hm => ?_
    obtain ⟨⟨m, y⟩, hq, rfl⟩ := List.mem_map.1 hm
    rcases List.mem_append.1 hq with hq | hq
    · obtain ⟨b', _, p', _, _, e1, _⟩ := (mem_enlNames _ _ _ _).1 hq
      exact hk _ e1
    · obtain ⟨b', _, p', _, _, e1, _⟩ := (mem_enlNames _ _ _ _).1 hq
      exact hk _ e1

example : ∃ s', getOrCreate (demo "b" true) () [("a", [("q1", ⟨[1, 1, 1], [2]⟩)])] [("a", [("p_q1", ⟨[1, 1, 1], [3]⟩)])] (demoBlock 2) = (s', .ok ()) ∧
    s'.enlState ≠ none := ⟨_, rfl, by intro h; cases h⟩

/-- Defect: if a first pass fails after enlargement parameters were created, every further pass with pass-through states raises a
`ValueError` and changes nothing, as long as no pass without pass-through states succeeds. -/
theorem C39_stuck [Zero α] (cfg : Cfg α T Θ R) (he : cfg.enlarge = true) (s : St α T Θ) (hn : s.notYet = true) (hs : s.enlState.isSome = true)
    (r : R) (i : Inp α) (h1 : i.state.isSome = true) (h2 : i.costate.isSome = true) :
    forward cfg r i s = (s, .error .valueError) := by
  obtain ⟨ps, hps⟩ := Option.isSome_iff_exists.1 h1
  obtain ⟨pc, hpc⟩ := Option.isSome_iff_exists.1 h2
  have hg : getOrCreate cfg r ps pc s = (s, .error .valueError) := by
    unfold getOrCreate
    rw [if_pos hn, if_pos (by simp [enlExists, hs])]
  have hp : passThrough cfg r i.state i.costate s = (s, .error .valueError) := by
    unfold passThrough
    rw [hps, hpc]
    dsimp only
    rw [if_pos he, hg]
  have hc : checkInputs i = .ok () := by
    unfold checkInputs
    rw [hps, hpc]
    simp
  unfold forward
  rw [hc, hp]

/-- A first pass with pass-through states but without data fails; after that the same block fails also with data, although a block
without the failed pass works. -/
example : (forward (demo "b" true) () { demoPass with data := none } (demoBlock 2)).2 = .error .valueError ∧
    (forward (demo "b" true) () demoPass (after (demo "b" true) (demoBlock 2) [.forward () { demoPass with data := none }])).2 = .error .valueError ∧
    (∃ o, (forward (demo "b" true) () demoPass (demoBlock 2)).2 = .ok o) := ⟨rfl, rfl, _, rfl⟩

/-- Defect: a block with particles cannot be created with the option to keep its initial state at zero. -/
theorem C39_keep_zero_raises [OfNat T 0] [OfNat T 1] (cfg : Cfg α T Θ R) (a : Args α T) (th : Θ) (hk : cfg.keepZero = true)
    (hi : a.integrand = true) (hn : a.integrandName = false) (hf : a.freeRnn = false) (ht : a.freeTime = false)
    (p : String × Tensor α) (d : TDict α) (hs : a.state = some (p :: d)) : construct cfg a th = .error .runtimeError := by
  unfold construct
  rw [hi, hn, hf, ht, hs]
  simp [registerOwn, hk, bind, Except.bind]

example : construct { demo "a" true with keepZero := true } (demoArgs 1) () = .error .runtimeError := by rfl

/-- Defect: when two pass-through blocks need enlargement for the same key, only the parameter of the last block is registered; the
other one is used, but no optimiser ever changes it. -/
theorem C39_lost :
    ∃ (cfg : Cfg ℤ ℤ Unit Unit) (s : St ℤ ℤ Unit) (i : Inp ℤ) (o : Out ℤ), (forward cfg () i s).2 = .ok o ∧
      (forward cfg () i s).1.enlState = some [("a", [("q1", some ([5], [0, 0, 1]))]), ("c", [("q1", some ([5], [0, 0, 1]))])] ∧
      parameters (forward cfg () i s).1 =
        .ok [.state "q1", .costate "p_q1", .integrand "nn.w", .enlState "c" "q1", .enlCostate "c" "p_q1"] ∧
      ∀ f g, ((train f g (forward cfg () i s).1).enlState.getD []).head? = some ("a", [("q1", some ([5], [0, 0, 1]))]) := by
  refine ⟨demo "b" false, demoBlock 2, ⟨none, some [("a", [("q1", ⟨[1, 1, 1], [2]⟩)]), ("c", [("q1", ⟨[1, 1, 1], [2]⟩)])],
    some [("a", [("p_q1", ⟨[1, 1, 1], [3]⟩)]), ("c", [("p_q1", ⟨[1, 1, 1], [3]⟩)])],
    some [("a", [("q1", ⟨[1, 1, 1], [8]⟩)])]⟩, _, rfl, rfl, rfl, ?_⟩
  intro f g
  generalize hs : (forward (demo "b" false) () _ (demoBlock 2)).1 = s
  have e : s.enlState = some [("a", [("q1", some ([5], [0, 0, 1]))]), ("c", [("q1", some ([5], [0, 0, 1]))])] := by rw [← hs]; rfl
  have er : s.reg.map Prod.snd = [.state "q1", .costate "p_q1", .integrand "nn.w", .enlState "c" "q1", .enlCostate "c" "p_q1"] := by
    rw [← hs]; rfl
  have hv : newValues f s.reg (.enlState "a" "q1") [(5 : ℤ)] = [5] := newValues_of_not_mem _ _ _ _ (by rw [er]; decide)
  unfold train
  dsimp only
  rw [e]
  simp [hv]

/-! ## C40 -/

/-- C40: after construction and any history, the block is set to exactly the integration time that was set last. -/
theorem C40_last_set [Zero α] [OfNat T 0] [OfNat T 1] (cfg : Cfg α T Θ R) (a : Args α T) (th : Θ) (s : St α T Θ)
    (h : construct cfg a th = .ok s) (ops : List (Op α T Θ R)) :
    Is (after cfg s ops) (lastWhen (.upTo (a.maxTime.getD 1)) ops) := by
  refine after_when cfg s _ ?_ ops
  unfold construct at h
  split at h
  · cases h
  split at h
  · cases h
  split at h
  · cases h
  split at h
  · cases h
  dsimp only at h
  revert h
  generalize (if (a.freeRnn || a.freeTime) = true then _ else _ : Py (PDict String Ref)) = r1
  rcases r1 with e | reg
  · intro h; cases h
  simp only [bind, Except.bind]
  generalize List.foldlM (m := Except Err) (fun reg (p : String × Ref) => register reg p.1 p.2) reg _ = r2
  rcases r2 with e | reg'
  · intro h; cases h
  intro h
  cases h
  exact ⟨rfl, rfl⟩

example : lastWhen (α := ℤ) (Θ := Unit) (R := Unit) (.upTo 1) [.setTimeVector [0, 2], .forward () demoX, .setTime 5, .move] = (.upTo 5 : When ℤ) := rfl

theorem integrate_congr [OfNat T 0] (cfg : Cfg α T Θ R) (solve' : Θ → Nat → Assembly.AllPlans → List α → List T → Py (Option (List (List α))))
    (x0 : List α) (plans : Assembly.AllPlans) (s : St α T Θ) (w : When T) (hw : Is s w)
    (h : cfg.solve s.theta s.dataDim plans x0 w.times = solve' s.theta s.dataDim plans x0 w.times) :
    integrate cfg x0 plans s = integrate { cfg with solve := solve' } x0 plans s := by
  unfold integrate
  cases w with
  | upTo t => rw [hw.1, hw.2]; dsimp only; rw [show [0, t] = (When.upTo t).times from rfl, h]
  | vector v => rw [hw.1, hw.2]; dsimp only; rw [show v = (When.vector v).times from rfl, h]

/-- C40: a pass asks the integrator only for the times in force: two integrators that agree on these times give the same outputs. -/
theorem C40_only_these_times [Zero α] [OfNat T 0] (cfg : Cfg α T Θ R)
    (solve' : Θ → Nat → Assembly.AllPlans → List α → List T → Py (Option (List (List α)))) (s : St α T Θ) (w : When T) (hw : Is s w)
    (h : ∀ th d p x, cfg.solve th d p x w.times = solve' th d p x w.times) (r : R) (i : Inp α) :
    forward cfg r i s = forward { cfg with solve := solve' } r i s := by
  have hp : ∀ a b, passThrough { cfg with solve := solve' } r a b s = passThrough cfg r a b s := fun _ _ => rfl
  have hin : ∀ d a b pd s', initial { cfg with solve := solve' } d a b pd s' = initial cfg d a b pd s' := fun _ _ _ _ _ => rfl
  have hch : ∀ a b, chooseData { cfg with solve := solve' } a b = chooseData cfg a b := fun _ _ => rfl
  have hfi : ∀ d o, finish { cfg with solve := solve' } d o = finish cfg d o := fun _ _ => rfl
  unfold forward
  rw [hp, hch]
  simp only [hin, hfi]
  split
  · rfl
  split
  · rfl
  rename_i s1 ps pc hpt
  have h1 := (passThrough_same cfg r i.state i.costate s).1
  rw [hpt] at h1
  split
  · rfl
  rename_i data pad _
  have h2 := (initial_same cfg data ps pc pad s1).1
  split
  · rfl
  rename_i s2 x0 plans hi
  rw [hi] at h2
  have hw2 : Is s2 w := by
    have e1 : s2.time = s.time := h2.time.trans h1.time
    have e2 : s2.timeVector = s.timeVector := h2.timeVector.trans h1.timeVector
    cases w with
    | upTo t => exact ⟨e1.trans hw.1, e2.trans hw.2⟩
    | vector v => exact ⟨e1.trans hw.1, e2.trans hw.2⟩
  rw [integrate_congr cfg solve' x0 plans s2 w hw2 (h _ _ _ _)]

/-- The integrated values: the last row for a single time, all rows for a vector. -/
theorem C40_result [OfNat T 0] (cfg : Cfg α T Θ R) (x0 : List α) (plans : Assembly.AllPlans) (s : St α T Θ) (w : When T) (hw : Is s w)
    (rows : List (List α)) (hsol : cfg.solve s.theta s.dataDim plans x0 w.times = .ok (some rows)) (hl : ∀ row ∈ rows, row.length = x0.length)
    (hp : Assembly.GoodAllPlans plans) (ht : Assembly.totalLength plans ≤ x0.length) :
    match w with
    | .upTo _ => ∀ row, rows.getLast? = some row → integrate cfg x0 plans s = Assembly.disassembleTensor (.vec row) (some plans) 0
    | .vector _ => ∃ S C D, integrate cfg x0 plans s = .ok (S, C, D) ∧ ∀ n (hn : n < rows.length),
        Assembly.disassembleTensor (.vec rows[n]) (some plans) 0 = .ok (Assembly.atTime n S, Assembly.atTime n C, Assembly.atTime n D) := by
  cases w with
  | upTo t =>
    intro row hr
    unfold integrate
    rw [hw.1, hw.2]
    dsimp only
    rw [show [0, t] = (When.upTo t).times from rfl, hsol]
    simp only [bind, Except.bind]
    rw [hr]
  | vector v =>
    obtain ⟨S, C, D, h1, _, _, _, h2⟩ := Assembly.C03_stack_rowwise x0.length rows hl plans hp ht
    refine ⟨S, C, D, ?_, h2⟩
    unfold integrate
    rw [hw.2]
    dsimp only
    rw [show v = (When.vector v).times from rfl, hsol]
    simp only [bind, Except.bind]
    exact h1

/-- Moving a block (to a device or number type) works exactly while a single integration time is set. -/
theorem C40_move [OfNat T 0] (s : St α T Θ) (w : When T) (hw : Is s w) :
    move s = match w with | .upTo _ => .ok () | .vector _ => .error .attributeError := by
  unfold move
  cases w with
  | upTo t => rw [hw.1]
  | vector v => rw [hw.1]

example : move (after (demo "a" true) (demoBlock 1) [.setTimeVector [0, 1]]) = .error .attributeError := rfl

/-- Defect: with a time vector, the concatenation dimension does not account for the leading time dimension.  For two blocks of widths
one, the concatenated state at each time should have shape `[1, 1, 2]`; it has shape `[1, 2, 1]`. -/
theorem C40_vector_concat_wrong_dimension :
    ∃ (cfg : Cfg ℤ ℤ Unit Unit) (s : St ℤ ℤ Unit) (i : Inp ℤ) (o o' : Out ℤ),
      (forward cfg () i (setTime 1 s)).2 = .ok o ∧ (forward cfg () i (setTimeVector [0, 1] s)).2 = .ok o' ∧
      o.state.map (fun b => b.2.map fun p => p.2.shape) = [[[1, 1, 2]]] ∧
      (Assembly.atTime 1 o'.state).map (fun b => b.2.map fun p => p.2.shape) = [[[1, 2, 1]]] :=
  ⟨demo "b" true, demoBlock 1, demoPass, _, _, rfl, rfl, rfl, rfl⟩

end Verif.Block
