import Verif.Flow.Blocks
import Verif.Block.Props
import Verif.Integrand.Lemmas

set_option linter.unusedSectionVars false

/-!
# C66: vectorising does not influence the integration
-/

namespace Verif.Flow
open Verif Verif.Assembly

variable {α T σ Θ R : Type}

/-- C66: for every integration method, right-hand side and starting point: integrating the vector of all states, costates and data with the vectorised
right-hand side gives the vectors of what integrating the dictionaries gives; both raise the same exceptions and leave the same memory. -/
theorem C66_vectors [AddMonoid α] (p : AllPlans) (hp : FullPlans p) (F : T → Trip α → σ → Py (Trip α × σ)) (hF : KeepsLayout p F) (M : Method α T)
    (x : Trip α) (hx : HasLayout p x) (s : σ) :
    ∃ v, assembleTensor x.1 x.2.1 x.2.2 = .ok (v, p) ∧
      match runDict p F M [x] s, runVec v.length (vecRhs p F) M [v] s with
      | .ok (ys, s'), .ok (rows, s'') => s'' = s' ∧ rows.length = ys.length ∧ ∀ n (h1 : n < ys.length) (h2 : n < rows.length),
          disassembleTensor (.vec rows[n]) (some p) 0 = .ok ys[n]
      | .error e, .error e' => e' = e
      | _, _ => False := by
  refine ⟨vec x, assemble_layout hp hx, ?_⟩
  obtain ⟨h1, h2⟩ := run_eq hp hF M [x] (by simpa using hx) s
  rw [List.map_singleton] at h1
  rw [vec_length hx, h1]
  cases hr : runDict p F M [x] s with
  | error e => rfl
  | ok r =>
    refine ⟨rfl, List.length_map .., fun n k1 k2 => ?_⟩
    simp only [List.getElem_map]
    exact disassemble_layout hp (h2 r hr _ (List.getElem_mem k1))

/-- C66: a forward pass of a block, for every integration method, every setting of the times and every input: it is the pass that integrates the
dictionaries.  The only assumptions are that the dictionaries to be integrated have sorted names and tensors with at least one dimension, and that the derivatives have
the shapes of the values and the names with `dot_` in front. -/
theorem C66_forward [AddMonoid α] [OfNat T 0] (M : List T → Method α T) (F : Θ → Nat → T → Trip α → σ → Py (Trip α × σ)) (s0 : σ)
    (cfg : Block.Cfg α T Θ R) (hc : cfg.solve = solveWith M F s0) (r : R) (i : Block.Inp α) (s : Block.St α T Θ) (w : Block.When T)
    (hw : Block.Is s w)
    (hgood : ∀ x, (prepare cfg r i s).2 = .ok x → (GoodDicts x.1 ∧ GoodDicts x.2.1 ∧ GoodDicts x.2.2) ∧
      KeepsLayout (layoutOf (full x)) (F s.theta (prepare cfg r i s).1.dataDim)) :
    Block.forward cfg r i s = direct M F s0 w cfg r i s := by
  rw [forward_prepare]
  unfold direct
  have hsame := prepare_same cfg r i s
  rcases hprep : prepare cfg r i s with ⟨s1, e | x⟩
  · rfl
  rw [hprep] at hsame
  dsimp only at hsame ⊢
  obtain ⟨g, hF⟩ := hgood x (by rw [hprep])
  rw [hprep] at hF
  rw [assembleTensor_eq _ _ _ g.1 g.2.1 g.2.2]
  by_cases hn : dropEmptyBlocks x.1 = [] ∨ dropEmptyBlocks x.2.1 = [] ∨ dropEmptyBlocks x.2.2 = []
  · rw [if_pos hn, if_pos (show (full x).1 = [] ∨ (full x).2.1 = [] ∨ (full x).2.2 = [] from hn)]
  · rw [if_neg hn, if_neg (show ¬ ((full x).1 = [] ∨ (full x).2.1 = [] ∨ (full x).2.2 = []) from hn)]
    dsimp only
    obtain ⟨h1, h2⟩ := full_layout g hn
    have hw1 : Block.Is s1 w := by
      cases w with
      | upTo t => exact ⟨hsame.time.trans hw.1, hsame.timeVector.trans hw.2⟩
      | vector v => exact ⟨hsame.time.trans hw.1, hsame.timeVector.trans hw.2⟩
    have := integrate_evolve M F s0 cfg hc s1 w hw1 (full x) h1 h2 (by rw [hsame.theta]; exact hF)
    rw [vec_full] at this
    change (match (Block.integrate cfg (vec x) (layoutOf (full x)) s1 >>= fun y => Block.finish cfg s1.dataDim y : Py (Block.Out α)) with
      | Except.error e => ((s1, Except.error e) : Block.St α T Θ × Py (Block.Out α))
      | Except.ok o => ({ s1 with notYet := false }, Except.ok o)) = _
    rw [this]
    rfl

/-- C66: an integrand whose derivatives of state, costate and data have the shapes of the values and the names with `dot_` is a right-hand side as assumed above, whatever hooks, cache, external
parameters and random numbers do. -/
theorem C66_integrand {Par N H D : Type} [LinearOrder T] [OfNat T 0] [Field N] (cfg : Integrand.Cfg T (Trip α) Par (TDicts α) N R H D) (p : AllPlans)
    (hs : ∀ q x d, HasLayout p x → cfg.rule.stateRhs q x = .ok d → ∃ d', d = dotted d' ∧ GoodDicts d' ∧ shapesOf d' = p.state)
    (hc : ∀ q x d, HasLayout p x → cfg.rule.costateRhs q x = .ok d → ∃ d', d = dotted d' ∧ GoodDicts d' ∧ shapesOf d' = p.costate)
    (hd : ∀ q x d, HasLayout p x → cfg.rule.dataRhs q x = .ok d → ∃ d', d = dotted d' ∧ GoodDicts d' ∧ shapesOf d' = p.data) :
    KeepsLayout p (ofIntegrand cfg) := by
  intro t x s y s' hx h
  unfold ofIntegrand at h
  rcases hf : Integrand.forward cfg.rule cfg.hookFails cfg.analytic cfg.transpose t x (s.2 0) s.1 with ⟨s1, cs, e | o⟩
  · rw [hf] at h; cases h
  rw [hf] at h
  cases h
  have hg : (Integrand.gradients cfg.rule cfg.hookFails cfg.analytic t x (s.2 0) s.1).2.2 = .ok o := by
    rw [Integrand.forward_eq] at hf
    split at hf
    · cases hf
    · rw [hf]
  have hg := Integrand.gradients_ok hg
  have key : ∃ q q', cfg.rule.stateRhs q x = .ok o.dotState ∧ cfg.rule.dataRhs q x = .ok o.dotData ∧ cfg.rule.costateRhs q' x = .ok o.dotCostate := by
    cases ha : cfg.analytic with
    | true =>
      rw [ha] at hg
      simp only [if_true] at hg
      rcases Integrand.gradientsAnalytic_cases cfg.rule t x (s.2 0).1 s.1 with ⟨h, _⟩ | ⟨_, ⟨e, _, h⟩ | ⟨q, _, h, ⟨e, _, h'⟩ | ⟨_, hu⟩⟩⟩
      · rw [h] at hg; cases hg
      · rw [h] at hg; cases hg
      · rw [h'] at hg; cases hg
      · obtain ⟨_, _, k1, k2, k3⟩ := hu o hg
        exact ⟨q, q, k1, k2, k3⟩
    | false =>
      rw [ha] at hg
      simp only [Bool.false_eq_true, if_false] at hg
      rcases Integrand.gradientsAutodiff_cases cfg.rule t x (s.2 0) s.1 with ⟨e, _, h⟩ | ⟨q, _, ⟨e, h⟩ | ⟨_, ds, dd, k1, k2, h⟩⟩
      · rw [h] at hg; cases hg
      · rw [h] at hg; cases hg
      · rw [h] at hg
        obtain ⟨_, e1, e2, _, k3⟩ := (Integrand.costateAutodiff_spec ..).2 o hg
        exact ⟨q, o.costateParams, by rw [e1]; exact k1, by rw [e2]; exact k2, k3⟩
  obtain ⟨q, q', k1, k2, k3⟩ := key
  obtain ⟨d1, e1, l1⟩ := hs q x _ hx k1
  obtain ⟨d2, e2, l2⟩ := hc q' x _ hx k3
  obtain ⟨d3, e3, l3⟩ := hd q x _ hx k2
  exact ⟨(d1, d2, d3), by rw [e1, e2, e3]; rfl, l1, l2, l3⟩

/-! ## Euler steps -/

theorem zip_zip [Zero α] (c : List α → α) (g : List α → α) (n : Nat) (rs : List (List α)) (i : Nat) (d : List α) (hi : rs[i]? = some d) :
    zipVec (fun l => c [l.getD 0 0, l.getD 1 0]) n [zipVec g n rs, d] = zipVec (fun l => c [g l, l.getD i 0]) n rs := by
  unfold zipVec
  apply List.map_congr_left
  intro j hj
  rw [List.mem_range] at hj
  simp only [List.map_cons, List.map_nil, List.getD_cons_zero, List.getD_cons_succ]
  congr 2
  · simp [List.getD_eq_getElem?_getD, hj]
  · congr 1
    simp [List.getD_eq_getElem?_getD, hi]

theorem vec_inj {p : AllPlans} (hp : FullPlans p) {x y : Trip α} (hx : HasLayout p x) (hy : HasLayout p y) (h : vec x = vec y) : x = y := by
  have h1 := disassemble_layout hp hx
  rw [h, disassemble_layout hp hy] at h1
  exact (Except.ok.inj h1).symm

theorem eulerGo_run [Ring α] {p : AllPlans} (hp : FullPlans p) {F : α → Trip α → σ → Py (Trip α × σ)} (hF : KeepsLayout p F) (ts : List α) :
    ∀ (t : α) (cur : List α → α) (outs : List (List α → α)) (xs : List (Trip α)) (y : Trip α) (ys : List (Trip α)) (s : σ),
      (∀ x ∈ xs, HasLayout p x) → HasLayout p y →
      (∀ more, (∀ x ∈ more, HasLayout p x) → pointwise3 cur p (xs ++ more) = y ∧ outs.map (fun g => pointwise3 g p (xs ++ more)) = ys ++ [y]) →
      runDict p F (eulerGo xs.length cur outs t ts) xs s = (eulerSteps p F t ts y s).map fun r => (ys ++ r.1, r.2) := by
  induction ts with
  | nil =>
    intro t cur outs xs y ys s hxs hy hinv
    have := (hinv [] (by simp)).2
    rw [List.append_nil] at this
    unfold eulerGo runDict eulerSteps
    rw [this]
    rfl
  | cons t' ts ih =>
    intro t cur outs xs y ys s hxs hy hinv
    have hcur := (hinv [] (by simp)).1
    rw [List.append_nil] at hcur
    unfold eulerGo runDict eulerSteps
    rw [hcur]
    cases hf : F t y s with
    | error e => rfl
    | ok r =>
      obtain ⟨d0, s'⟩ := r
      dsimp only
      obtain ⟨d, rfl, hd⟩ := hF t y s d0 s' hy hf
      rw [undotted3_dotted3]
      have hxs' : ∀ x ∈ xs ++ [d], HasLayout p x := fun x hm => by
        rcases List.mem_append.1 hm with hm | hm
        · exact hxs x hm
        · rw [List.mem_singleton.1 hm]; exact hd
      have hy' : HasLayout p (pointwise3 (fun l => l.getD 0 0 + (t' - t) * l.getD 1 0) p [y, d]) := layout_pointwise3 _ p hp _
      have key : ∀ more, (∀ x ∈ more, HasLayout p x) →
          pointwise3 (fun rs => cur rs + (t' - t) * rs.getD xs.length 0) p ((xs ++ [d]) ++ more) =
            pointwise3 (fun l => l.getD 0 0 + (t' - t) * l.getD 1 0) p [y, d] := by
        intro more hmore
        have hall : ∀ x ∈ xs ++ [d] ++ more, HasLayout p x := fun x hm => by
          rcases List.mem_append.1 hm with hm | hm
          · exact hxs' x hm
          · exact hmore x hm
        apply vec_inj hp (layout_pointwise3 _ p hp _) hy'
        rw [vec_pointwise3 _ p _ hall, vec_pointwise3 _ p [y, d] (by simpa using ⟨hy, hd⟩)]
        have hyv : vec y = zipVec cur (totalLength p) ((xs ++ [d] ++ more).map vec) := by
          rw [← vec_pointwise3 cur p _ hall, List.append_assoc]
          exact congrArg vec (hinv ([d] ++ more) (fun x hm => by
            rcases List.mem_append.1 hm with hm | hm
            · rw [List.mem_singleton.1 hm]; exact hd
            · exact hmore x hm)).1.symm
        rw [List.map_cons, List.map_singleton, hyv]
        exact (zip_zip (fun l => l.getD 0 0 + (t' - t) * l.getD 1 0) cur (totalLength p) _ xs.length (vec d) (by simp)).symm
      have := ih t' (fun rs => cur rs + (t' - t) * rs.getD xs.length 0) (outs ++ [fun rs => cur rs + (t' - t) * rs.getD xs.length 0]) (xs ++ [d])
        (pointwise3 (fun l => l.getD 0 0 + (t' - t) * l.getD 1 0) p [y, d]) (ys ++ [y]) s' hxs' hy' (by
          intro more hmore
          refine ⟨key more hmore, ?_⟩
          rw [List.map_append, List.map_singleton, key more hmore, List.append_assoc xs]
          congr 1
          exact (hinv ([d] ++ more) (fun x hm => by
            rcases List.mem_append.1 hm with hm | hm
            · rw [List.mem_singleton.1 hm]; exact hd
            · exact hmore x hm)).2)
      rw [List.length_append, List.length_singleton] at this
      rw [this]
      cases eulerSteps p F t' ts (pointwise3 (fun l => l.getD 0 0 + (t' - t) * l.getD 1 0) p [y, d]) s' with
      | error e => rfl
      | ok r => simp [Except.map]

/-- C66: the dictionary run of the Euler method is the Euler recursion: value plus time difference times derivative, element by element. -/
theorem C66_euler [Ring α] (p : AllPlans) (hp : FullPlans p) (F : α → Trip α → σ → Py (Trip α × σ)) (hF : KeepsLayout p F) (t : α) (ts : List α)
    (x : Trip α) (hx : HasLayout p x) (s : σ) :
    runDict p F (euler (t :: ts)) [x] s = eulerSteps p F t ts x s := by
  have := eulerGo_run hp hF ts t (fun rs => rs.getD 0 0) [fun rs => rs.getD 0 0] [x] x [] s (by simpa using hx) hx (by
    intro more hmore
    have h1 : pointwise3 (fun rs => rs.getD 0 0) p ([x] ++ more) = x := by
      apply vec_inj hp (layout_pointwise3 _ p hp _) hx
      rw [vec_pointwise3 _ p _ (by
        intro y hy
        rcases List.mem_append.1 hy with hy | hy
        · rw [List.mem_singleton.1 hy]; exact hx
        · exact hmore y hy)]
      unfold zipVec
      apply List.ext_getElem
      · simp [vec_length hx]
      · intro j h1 h2
        simp [List.getD_eq_getElem?_getD, h2]
    exact ⟨h1, by rw [List.map_singleton, h1]; rfl⟩)
  show runDict p F (eulerGo 1 (fun rs => rs.getD 0 0) [fun rs => rs.getD 0 0] t ts) [x] s = _
  rw [show (1 : Nat) = [x].length from rfl, this]
  cases eulerSteps p F t ts x s <;> rfl

/-! ## Examples -/

/-- State and data grow like themselves, the costate falls by the time. -/
def demoF (t : ℤ) (x : Trip ℤ) (n : Nat) : Py (Trip ℤ × Nat) :=
  .ok (dotted3 (x.1, x.2.1.map fun b => (b.1, b.2.map fun e => (e.1, { e.2 with data := e.2.data.map fun _ => -t })), x.2.2), n + 1)

/-- A state with one tensor, a costate with one tensor and data with two blocks. -/
def demoX : Trip ℤ :=
  ([("a", [("q1", ⟨[1, 2], [3, 4]⟩)])], [("a", [("p_q1", ⟨[1, 2], [5, 6]⟩)])], [("a", [("q1", ⟨[1], [7]⟩)]), ("b", [("q1", ⟨[2], [8, 9]⟩)])])

theorem demo_keeps (p : AllPlans) : KeepsLayout p demoF := by
  intro t x s y s' hx h
  cases h
  refine ⟨_, rfl, hx.1, ?_, hx.2.2⟩
  obtain ⟨⟨h1, h2⟩, h3⟩ := hx.2.1
  constructor
  · constructor
    · unfold SDict.Sorted SDict.keys at h1 ⊢
      rw [List.map_map]
      exact h1
    · intro b hb
      obtain ⟨b', hb', rfl⟩ := List.mem_map.1 hb
      obtain ⟨k1, k2⟩ := h2 b' hb'
      constructor
      · unfold SDict.Sorted SDict.keys at k1 ⊢
        rw [List.map_map]
        exact k1
      · intro e he
        obtain ⟨e', he', rfl⟩ := List.mem_map.1 he
        obtain ⟨m1, m2⟩ := k2 e' he'
        refine ⟨?_, m2⟩
        unfold Tensor.WF at m1 ⊢
        simpa using m1
  · rw [← h3]
    unfold shapesOf
    simp [List.map_map, Function.comp_def]

example : FullPlans (layoutOf demoX) ∧ HasLayout (layoutOf demoX) demoX :=
  full_layout (x := demoX) ⟨by decide, by decide, by decide⟩ (by decide)

/-- Two Euler steps on dictionaries. -/
example : runDict (layoutOf demoX) demoF (euler [0, 1, 3]) [demoX] 0 = .ok ([demoX,
    ([("a", [("q1", ⟨[1, 2], [6, 8]⟩)])], [("a", [("p_q1", ⟨[1, 2], [5, 6]⟩)])], [("a", [("q1", ⟨[1], [14]⟩)]), ("b", [("q1", ⟨[2], [16, 18]⟩)])]),
    ([("a", [("q1", ⟨[1, 2], [18, 24]⟩)])], [("a", [("p_q1", ⟨[1, 2], [3, 4]⟩)])], [("a", [("q1", ⟨[1], [42]⟩)]), ("b", [("q1", ⟨[2], [48, 54]⟩)])])],
    2) := by rfl

/-- The same on vectors. -/
example : runVec 7 (vecRhs (layoutOf demoX) demoF) (euler [0, 1, 3]) [[3, 4, 5, 6, 7, 8, 9]] 0 =
    .ok ([[3, 4, 5, 6, 7, 8, 9], [6, 8, 5, 6, 14, 16, 18], [18, 24, 3, 4, 42, 48, 54]], 2) := by rfl

/-- A block that takes Euler steps. -/
def demoBlockCfg : Block.Cfg ℤ ℤ Unit Unit := { Block.demo "a" false with solve := solveWith euler (fun _ _ => demoF) 0 }

example : Block.forward demoBlockCfg () Block.demoX (Block.demoBlock 1) = direct euler (fun _ _ => demoF) 0 (.upTo 1) demoBlockCfg () Block.demoX (Block.demoBlock 1) :=
  C66_forward euler (fun _ _ => demoF) 0 demoBlockCfg rfl () Block.demoX (Block.demoBlock 1) (.upTo 1) ⟨rfl, rfl⟩
    (fun x hx => by
      have : x = ([("a", [("q1", ⟨[1, 1, 1], [1]⟩)])], [("a", [("p_q1", ⟨[1, 1, 1], [2]⟩)])], [("a", [("q1", ⟨[1, 1, 1], [7]⟩)])]) :=
        (Except.ok.inj hx).symm
      subst this
      exact ⟨⟨by decide, by decide, by decide⟩, demo_keeps _⟩)

example : ((Block.forward demoBlockCfg () Block.demoX (Block.demoBlock 1)).2).map (fun o => (o.state, o.costate, o.data)) =
    .ok ([("a", [("q1", ⟨[1, 1, 1], [2]⟩)])], [("a", [("p_q1", ⟨[1, 1, 1], [2]⟩)])], [("a", [("q1", ⟨[1, 1, 1], [14]⟩)])]) := by rfl

end Verif.Flow
