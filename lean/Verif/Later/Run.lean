import Verif.Later.Joined

/-!
# Integrating two blocks
-/

namespace Verif.Later
open Verif Verif.Tensor Verif.Assembly Verif.Evolution Verif.Flow Verif.Whole

variable {K Ka Kb K' Ka' Kb' P R H D : Type}

/-! ## One section -/

/-- Names and shapes of two blocks. -/
def plan2 (La : Lay Ka) (Lb : Lay Kb) (a b pre : String) (n : Nat) : Plans :=
  [(a, La.names.map fun e => (pre ++ e.1, n :: e.2)), (b, Lb.names.map fun e => (pre ++ e.1, n :: e.2))]

section
variable {La : Lay Ka} {Lb : Lay Kb} {e : Ka ⊕ Kb ≃ K} {a b : String}

theorem good_two (hLa : La.Ok) (hLb : Lb.Ok) (hab : a < b) (pre : String) (n : Nat) (x : Fin n × K → ℝ) : GoodDicts (two La Lb e a b pre n x) := by
  refine ⟨two_sorted La Lb e hab pre n x, ?_⟩
  intro c hc
  simp only [two, List.mem_cons, List.not_mem_nil, or_false] at hc
  rcases hc with rfl | rfl
  · exact (enc_hasRows hLa pre n _).1
  · exact (enc_hasRows hLb pre n _).1

theorem shapes_two (La : Lay Ka) (Lb : Lay Kb) (e : Ka ⊕ Kb ≃ K) (a b pre : String) (n : Nat) (x : Fin n × K → ℝ) :
    shapesOf (two La Lb e a b pre n x) = plan2 La Lb a b pre n := by
  unfold shapesOf two plan2
  simp only [List.map_cons, List.map_nil]
  rw [← enc_shapes La pre n (left e x), ← enc_shapes Lb pre n (right e x)]

theorem exists_two (hLa : La.Ok) (hLb : Lb.Ok) (e : Ka ⊕ Kb ≃ K) (pre : String) (n : Nat) (d : TDicts ℝ) (hd : GoodDicts d) (hs : shapesOf d = plan2 La Lb a b pre n) :
    ∃ y : Fin n × K → ℝ, d = two La Lb e a b pre n y := by
  unfold shapesOf plan2 at hs
  obtain ⟨c, c', rfl⟩ : ∃ c c', d = [c, c'] := by
    rw [← List.length_eq_two]
    simpa using congrArg List.length hs
  simp only [List.map_cons, List.map_nil, List.cons.injEq, and_true, Prod.mk.injEq] at hs
  refine ⟨beside e (dec La pre n c.2) (dec Lb pre n c'.2), ?_⟩
  unfold two
  rw [left_beside, right_beside, enc_dec hLa ⟨hd.2 c (by simp), hs.1.2⟩, enc_dec hLb ⟨hd.2 c' (by simp), hs.2.2⟩, ← hs.1.1, ← hs.2.1]

theorem entry_first (d d' : TDict ℝ) (k : String) (j : Nat) : entry [(a, d), (b, d')] a k j = entry [(a, d)] a k j := by
  unfold entry
  simp [SDict.get?_cons]

theorem entry_second (hab : a < b) (d d' : TDict ℝ) (k : String) (j : Nat) : entry [(a, d), (b, d')] b k j = entry [(b, d')] b k j := by
  unfold entry
  rw [SDict.get?_cons, if_neg (ne_of_lt hab)]

theorem data_first (d d' : TDict ℝ) (k : String) : tensorData [(a, d), (b, d')] a k = tensorData [(a, d)] a k := by
  unfold tensorData
  simp [SDict.get?_cons]

theorem data_second (hab : a < b) (d d' : TDict ℝ) (k : String) : tensorData [(a, d), (b, d')] b k = tensorData [(b, d')] b k := by
  unfold tensorData
  rw [SDict.get?_cons, if_neg (ne_of_lt hab)]

theorem pointwise_two (hLa : La.Ok) (hLb : Lb.Ok) (hab : a < b) (pre : String) (n : Nat) (g : List ℝ → ℝ) {δ : Type} (ds : List δ) (x : δ → Fin n × K → ℝ) :
    pointwise g (plan2 La Lb a b pre n) (ds.map fun d => two La Lb e a b pre n (x d)) = two La Lb e a b pre n fun k => g (ds.map fun d => x d k) := by
  have h1 := pointwise_single a hLa pre n g ds fun d => left e (x d)
  have h2 := pointwise_single b hLb pre n g ds fun d => right e (x d)
  unfold pointwise at h1 h2 ⊢
  simp only [plan2, List.map_cons, List.map_nil, List.map_map, two, Function.comp_def, entry_first, entry_second hab] at h1 h2 ⊢
  exact congrArg₂ (fun u v : TDicts ℝ => u ++ v) h1 h2

theorem stack_two (hLa : La.Ok) (hLb : Lb.Ok) (hab : a < b) (pre : String) (n : Nat) {δ : Type} (ds : List δ) (x : δ → Fin n × K → ℝ) :
    stack (plan2 La Lb a b pre n) (ds.map fun d => two La Lb e a b pre n (x d)) =
      [(a, encTimes La pre n (ds.map fun d => left e (x d))), (b, encTimes Lb pre n (ds.map fun d => right e (x d)))] := by
  have h1 := stack_single a hLa pre n ds fun d => left e (x d)
  have h2 := stack_single b hLb pre n ds fun d => right e (x d)
  unfold stack at h1 h2 ⊢
  simp only [plan2, List.map_cons, List.map_nil, List.map_map, two, Function.comp_def, List.flatMap_map, List.length_map, data_first, data_second hab] at h1 h2 ⊢
  exact congrArg₂ (fun u v : TDicts ℝ => u ++ v) h1 h2

theorem sum_sides [Fintype K] [Fintype Ka] [Fintype Kb] (e : Ka ⊕ Kb ≃ K) (f : K → ℝ) : ∑ k, f k = ∑ k : Ka, f (e (Sum.inl k)) + ∑ k : Kb, f (e (Sum.inr k)) := by
  rw [← e.sum_comp, Fintype.sum_sum_type]

theorem sum_two [Fintype K] (hLa : La.Ok) (hLb : Lb.Ok) (e : Ka ⊕ Kb ≃ K) (pre : String) (n : Nat) (x : Fin n × K → ℝ) :
    (elements (two La Lb e a b pre n x)).sum = ∑ k, x k := by
  classical
  let _ : Fintype Ka := Fintype.ofInjective (fun k : Ka => e (Sum.inl k)) (e.injective.comp Sum.inl_injective)
  let _ : Fintype Kb := Fintype.ofInjective (fun k : Kb => e (Sum.inr k)) (e.injective.comp Sum.inr_injective)
  have h1 := sum_elements a hLa pre n (left e x)
  have h2 := sum_elements b hLb pre n (right e x)
  have h3 : elements (two La Lb e a b pre n x) = elements [(a, enc La pre n (left e x))] ++ elements [(b, enc Lb pre n (right e x))] := by
    unfold elements two
    simp
  rw [h3, List.sum_append, h1, h2]
  simp only [Fintype.sum_prod_type]
  rw [← Finset.sum_add_distrib]
  apply Finset.sum_congr rfl
  intro i _
  exact (sum_sides e fun k => x (i, k)).symm

theorem dotted_two (La : Lay Ka) (Lb : Lay Kb) (e : Ka ⊕ Kb ≃ K) (a b pre : String) (n : Nat) (x : Fin n × K → ℝ) :
    dotted (two La Lb e a b pre n x) = two La Lb e a b ("dot_" ++ pre) n x := by
  have h1 := dotted_single a La pre n (left e x)
  have h2 := dotted_single b Lb pre n (right e x)
  unfold dotted at h1 h2 ⊢
  simp only [two, List.map_cons, List.map_nil] at h1 h2 ⊢
  exact congrArg₂ (fun u v : TDicts ℝ => u ++ v) h1 h2

theorem good_plan2 (hLa : La.Ok) (hLb : Lb.Ok) (hab : a < b) (pre : String) (n : Nat) : GoodPlans (plan2 La Lb a b pre n) := by
  refine ⟨List.pairwise_cons.2 ⟨fun c hc => by rw [List.mem_singleton.1 hc]; exact hab, List.pairwise_singleton _ _⟩, ?_⟩
  intro c hc
  simp only [plan2, List.mem_cons, List.not_mem_nil, or_false] at hc
  rcases hc with rfl | rfl
  · refine ⟨sorted_pre La.names hLa.sorted pre _, ?_⟩
    intro q hq
    obtain ⟨q', _, rfl⟩ := List.mem_map.1 hq
    simp
  · refine ⟨sorted_pre Lb.names hLb.sorted pre _, ?_⟩
    intro q hq
    obtain ⟨q', _, rfl⟩ := List.mem_map.1 hq
    simp

end

/-! ## State, costate and data -/

/-- The layouts of two blocks: names, and where the coordinates of particles and samples are. -/
structure Lays (Ka Kb K Ka' Kb' K' : Type) where
  fst : String
  snd : String
  La : Lay Ka
  Lb : Lay Kb
  e : Ka ⊕ Kb ≃ K
  La' : Lay Ka'
  Lb' : Lay Kb'
  e' : Ka' ⊕ Kb' ≃ K'

/-- The names are in order and the layouts are proper. -/
structure Lays.Ok (J : Lays Ka Kb K Ka' Kb' K') : Prop where
  lt : J.fst < J.snd
  a : J.La.Ok
  b : J.Lb.Ok
  a' : J.La'.Ok
  b' : J.Lb'.Ok

/-- State, costate and data with the given values, in two blocks. -/
noncomputable def trip2 (J : Lays Ka Kb K Ka' Kb' K') {n B : Nat} (z : Sys2 (Fin n) (Fin B) K K') : Trip ℝ :=
  (two J.La J.Lb J.e J.fst J.snd "" n z.1, two J.La J.Lb J.e J.fst J.snd "p_" n z.2.1, two J.La' J.Lb' J.e' J.fst J.snd "" B z.2.2)

/-- Its names and shapes. -/
def plans2 (J : Lays Ka Kb K Ka' Kb' K') (n B : Nat) : AllPlans :=
  ⟨plan2 J.La J.Lb J.fst J.snd "" n, plan2 J.La J.Lb J.fst J.snd "p_" n, plan2 J.La' J.Lb' J.fst J.snd "" B⟩

/-- The derivatives under their names. -/
noncomputable def dotTrip2 (J : Lays Ka Kb K Ka' Kb' K') {n B : Nat} (z : Sys2 (Fin n) (Fin B) K K') : Trip ℝ :=
  (two J.La J.Lb J.e J.fst J.snd "dot_" n z.1, two J.La J.Lb J.e J.fst J.snd "dot_p_" n z.2.1, two J.La' J.Lb' J.e' J.fst J.snd "dot_" B z.2.2)

section
variable {J : Lays Ka Kb K Ka' Kb' K'}

theorem trip2_layout (hJ : J.Ok) {n B : Nat} (z : Sys2 (Fin n) (Fin B) K K') : HasLayout (plans2 J n B) (trip2 J z) :=
  ⟨⟨good_two hJ.a hJ.b hJ.lt _ _ _, shapes_two _ _ _ _ _ _ _ _⟩, ⟨good_two hJ.a hJ.b hJ.lt _ _ _, shapes_two _ _ _ _ _ _ _ _⟩,
    ⟨good_two hJ.a' hJ.b' hJ.lt _ _ _, shapes_two _ _ _ _ _ _ _ _⟩⟩

theorem layout_trip2 (hJ : J.Ok) {n B : Nat} (x : Trip ℝ) (hx : HasLayout (plans2 J n B) x) : ∃ z : Sys2 (Fin n) (Fin B) K K', x = trip2 J z := by
  obtain ⟨u, v, w⟩ := x
  obtain ⟨h1, h2, h3⟩ := hx
  obtain ⟨y1, rfl⟩ := exists_two hJ.a hJ.b J.e _ _ _ h1.1 h1.2
  obtain ⟨y2, rfl⟩ := exists_two hJ.a hJ.b J.e _ _ _ h2.1 h2.2
  obtain ⟨y3, rfl⟩ := exists_two hJ.a' hJ.b' J.e' _ _ _ h3.1 h3.2
  exact ⟨(y1, y2, y3), rfl⟩

theorem pointwise3_trip2 (hJ : J.Ok) {n B : Nat} (g : List ℝ → ℝ) (zs : List (Sys2 (Fin n) (Fin B) K K')) :
    pointwise3 g (plans2 J n B) (zs.map (trip2 J)) = trip2 J (combine g zs) := by
  have h1 := pointwise_two hJ.a hJ.b (e := J.e) hJ.lt "" n g zs fun z => z.1
  have h2 := pointwise_two hJ.a hJ.b (e := J.e) hJ.lt "p_" n g zs fun z => z.2.1
  have h3 := pointwise_two hJ.a' hJ.b' (e := J.e') hJ.lt "" B g zs fun z => z.2.2
  unfold pointwise3 plans2 combine
  simp only [List.map_map]
  exact congrArg₂ Prod.mk h1 (congrArg₂ Prod.mk h2 h3)

theorem total_trip2 [Fintype K] [Fintype K'] (hJ : J.Ok) {n B : Nat} (z : Sys2 (Fin n) (Fin B) K K') : total (trip2 J z) = sumAll z := by
  unfold total sumAll trip2
  simp only [sum_two hJ.a hJ.b, sum_two hJ.a' hJ.b']

theorem dotTrip2_eq (J : Lays Ka Kb K Ka' Kb' K') {n B : Nat} (z : Sys2 (Fin n) (Fin B) K K') : dotTrip2 J z = dotted3 (trip2 J z) := by
  unfold dotTrip2 dotted3 trip2
  simp only [dotted_two]
  rfl

/-- Methods on the dictionaries of two blocks do what they do on functions. -/
theorem run_sim2 [Fintype K] [Fintype K'] (hJ : J.Ok) {n B : Nat} {σ : Type} (F : ℝ → Trip ℝ → σ → Py (Trip ℝ × σ))
    (fld : ℝ → Sys2 (Fin n) (Fin B) K K' → Sys2 (Fin n) (Fin B) K K') (Inv : σ → Prop)
    (hF : ∀ t z s, Inv s → ∃ s', F t (trip2 J z) s = .ok (dotTrip2 J (fld t z), s') ∧ Inv s') (M : Method ℝ ℝ) :
    ∀ (zs : List (Sys2 (Fin n) (Fin B) K K')) (s : σ), Inv s →
      ∃ s', runDict (plans2 J n B) F M (zs.map (trip2 J)) s = (runSys fld M zs).map (fun ys => (ys.map (trip2 J), s')) ∧
        ∀ ys, runSys fld M zs = .ok ys → Inv s' := by
  induction M with
  | done outs =>
    intro zs s hs
    refine ⟨s, ?_, fun _ _ => hs⟩
    unfold runDict runSys
    simp only [pointwise3_trip2 hJ, Except.map, List.map_map]
    rfl
  | fail e =>
    intro zs s hs
    exact ⟨s, rfl, fun _ _ => hs⟩
  | eval t g next ih =>
    intro zs s hs
    obtain ⟨s1, h1, hi⟩ := hF t (combine g zs) s hs
    obtain ⟨s2, h2, hi2⟩ := ih (zs ++ [fld t (combine g zs)]) s1 hi
    refine ⟨s2, ?_, hi2⟩
    unfold runDict runSys
    rw [pointwise3_trip2 hJ, h1, ← h2]
    simp only [List.map_append, List.map_cons, List.map_nil, dotTrip2_eq, undotted3_dotted3]
  | test q next ih =>
    intro zs s hs
    obtain ⟨s2, h2, hi2⟩ := ih (sumAll (combine q zs)) zs s hs
    refine ⟨s2, ?_, hi2⟩
    unfold runDict runSys
    rw [pointwise3_trip2 hJ, total_trip2 hJ]
    exact h2

/-! ## One evaluation of the integrand -/

/-- The class of a later block: its rows are those of the two blocks side by side. -/
structure Fits (c : Cls K K' P R) (J : Lays Ka Kb K Ka' Kb' K') (dim dataDim : Nat) : Prop where
  ok : J.Ok
  lay : c.lay.Ok
  dataLay : c.dataLay.Ok
  state : Joined c.lay J.La J.Lb J.e dim
  data : Joined c.dataLay J.La' J.Lb' J.e' dataDim

variable {c : Cls K K' P R} {dim dataDim : Nat}

theorem advect_two {L : Lay K} {La : Lay Ka} {Lb : Lay Kb} {e : Ka ⊕ Kb ≃ K} (f : Evolution.Class K P) (hL : L.Ok) (hLa : La.Ok) (hLb : Lb.Ok) (h : Joined L La Lb e dim)
    {a b : String} (hab : a < b) {m : Nat} (x : Fin m × K → ℝ) (θ : Par P R) :
    advect L f true dim θ (two La Lb e a b "" m x) = .ok (two La Lb e a b "dot_" m (f (Fin m) θ.1 x)) := by
  unfold advect
  rw [if_pos rfl, concat_two hL hLa hLb h hab]
  show (do
    let q ← readRows L "" (rowCount L "" (enc L "" m x)) (enc L "" m x)
    Concat.splitDicts (enc L "dot_" _ (f (Fin _) θ.1 q)) (two La Lb e a b "" m x) dim) = _
  rw [rowCount_enc hL, readRows_enc hL]
  exact split_two hL hLa hLb h hab "dot_" "" m _ x

theorem readBoth_trip2 (hc : Fits c J dim dataDim) {n B : Nat} (z : Sys2 (Fin n) (Fin B) K K') : readBoth c dim (trip2 J z) = .ok ⟨n, z.1, z.2.1⟩ := by
  unfold readBoth trip2
  simp only [concat_two hc.lay hc.ok.a hc.ok.b hc.state hc.ok.lt, bind, Except.bind]
  have hm := rowCount_enc hc.lay "" n z.1
  generalize rowCount c.lay "" (enc c.lay "" n z.1) = m at hm ⊢
  subst hm
  simp only [readRows_enc hc.lay]

theorem rule_compute2 (hc : Fits c J dim dataDim) {n B : Nat} (z : Sys2 (Fin n) (Fin B) K K') (r : R) :
    (rule c true dim dataDim).compute r (trip2 J z) = .ok (c.par n r z.1 z.2.1, r) := by
  simp only [rule, if_true, readBoth_trip2 hc z, bind, Except.bind]

theorem rule_state2 (hc : Fits c J dim dataDim) {n B : Nat} (z : Sys2 (Fin n) (Fin B) K K') (θ : Par P R) :
    (rule c true dim dataDim).stateRhs θ (trip2 J z) = .ok (two J.La J.Lb J.e J.fst J.snd "dot_" n (c.rhs (Fin n) θ.1 z.1)) :=
  advect_two c.rhs hc.lay hc.ok.a hc.ok.b hc.state hc.ok.lt z.1 θ

theorem rule_data2 (hc : Fits c J dim dataDim) {n B : Nat} (z : Sys2 (Fin n) (Fin B) K K') (θ : Par P R) :
    (rule c true dim dataDim).dataRhs θ (trip2 J z) = .ok (two J.La' J.Lb' J.e' J.fst J.snd "dot_" B (c.dataRhs (Fin B) θ.1 z.2.2)) :=
  advect_two c.dataRhs hc.dataLay hc.ok.a' hc.ok.b' hc.data hc.ok.lt z.2.2 θ

theorem rule_costate2 (hc : Fits c J dim dataDim) {n B : Nat} (z : Sys2 (Fin n) (Fin B) K K') (θ : Par P R) :
    (rule c true dim dataDim).costateRhs θ (trip2 J z) = .ok (two J.La J.Lb J.e J.fst J.snd "dot_p_" n (c.cost n θ.1 θ.2 z.1 z.2.1)) := by
  simp only [rule, if_true, readBoth_trip2 hc z, bind, Except.bind]
  exact split_two hc.lay hc.ok.a hc.ok.b hc.state hc.ok.lt "dot_p_" "p_" n _ z.2.1

/-- Hooks that do not raise do not change an evaluation. -/
theorem forward_of_gradients {cfg : Integrand.Cfg ℝ (Trip ℝ) (Par P R) (TDicts ℝ) ℝ R H D} (hh : ∀ h a, cfg.hookFails h a = none) (ht : cfg.transpose = false)
    (t : ℝ) (x : Trip ℝ) (s s1 : Integrand.St ℝ (Par P R) ℝ H D) (rnd : Nat → R × R) (o : Integrand.Out (Par P R) (TDicts ℝ))
    (ho : (if cfg.analytic then Integrand.gradientsAnalytic cfg.rule t x (rnd 0).1 s else Integrand.gradientsAutodiff cfg.rule t x (rnd 0) s) = (s1, .ok o)) :
    ofIntegrand cfg t x (s, rnd) = .ok ((o.dotState, o.dotCostate, o.dotData), (s1, fun i => rnd (i + 1))) := by
  have hfw : ∃ cs, Integrand.forward cfg.rule cfg.hookFails cfg.analytic cfg.transpose t x (rnd 0) s = (s1, cs, .ok o) := by
    unfold Integrand.forward
    rw [ht, if_neg (by simp)]
    unfold Integrand.gradients
    rw [ho]
    have := runHooks_ok cfg.hookFails hh ⟨t, x, o.dotState, o.dotCostate, o.dotData, o.params, s1.custom⟩ (s1.hooks.map Prod.snd)
    simp only
    rcases hr : Integrand.runHooks cfg.hookFails ⟨t, x, o.dotState, o.dotCostate, o.dotData, o.params, s1.custom⟩ (s1.hooks.map Prod.snd) with ⟨cs, res⟩
    rw [hr] at this
    simp only at this
    rw [this]
    exact ⟨cs, rfl⟩
  obtain ⟨cs, hfw⟩ := hfw
  unfold ofIntegrand
  simp only [hfw]

theorem eval_plain2 (hc : Fits c J dim dataDim) {cfg : Integrand.Cfg ℝ (Trip ℝ) (Par P R) (TDicts ℝ) ℝ R H D} (hi : IsCfg c dim dataDim cfg) (ha : cfg.analytic = false)
    {n B : Nat} (t : ℝ) (z : Sys2 (Fin n) (Fin B) K K') (s : Integrand.St ℝ (Par P R) ℝ H D × (Nat → R × R)) (hu : s.1.useRnn = false) (he : s.1.external = false) :
    ∃ s', ofIntegrand cfg t (trip2 J z) s = .ok (dotTrip2 J (fieldWith c (usedPars c false (s.2 0) z).1 (usedPars c false (s.2 0) z).2 z), s') ∧
      s'.1.useRnn = false ∧ s'.1.external = false := by
  obtain ⟨s, rnd⟩ := s
  simp only at hu he
  have hch : Integrand.chooseParams (rule c true dim dataDim) t (trip2 J z) (rnd 0).1 s = (s, .ok (c.par n (rnd 0).1 z.1 z.2.1, (rnd 0).1)) := by
    unfold Integrand.chooseParams
    rw [hu]
    simp only [Bool.false_eq_true, if_false, rule_compute2 hc z]
  obtain ⟨s1, hp1, hu1, he1⟩ : ∃ s1 : Integrand.St ℝ (Par P R) ℝ H D,
      Integrand.updatePenalty (rule c true dim dataDim) t (c.par n (rnd 0).1 z.1 z.2.1, (rnd 0).1) s = (s1, .ok ()) ∧ s1.useRnn = false ∧ s1.external = false := by
    unfold Integrand.updatePenalty
    rw [he]
    by_cases ht : t = 0
    · rw [if_pos ht]
      exact ⟨_, rfl, hu, rfl⟩
    · rw [if_neg ht]
      exact ⟨s, rfl, hu, he⟩
  have hla : Integrand.lagrangianParams (rule c true dim dataDim) (trip2 J z) (rnd 0).2 s1 = (s1, .ok (c.par n (rnd 0).2 z.1 z.2.1, (rnd 0).2)) := by
    unfold Integrand.lagrangianParams
    rw [hu1]
    simp only [Bool.false_eq_true, if_false, rule_compute2 hc z]
  refine ⟨(s1, fun i => rnd (i + 1)), forward_of_gradients hi.hooks hi.transpose t (trip2 J z) s s1 rnd _ (by
    rw [ha, if_neg (by simp), hi.rule]
    unfold Integrand.gradientsAutodiff
    rw [hch]
    simp only [hp1, rule_state2 hc z, rule_data2 hc z]
    unfold Integrand.costateAutodiff
    rw [hla]
    simp only [rule_costate2 hc z, bind, Except.bind]
    exact rfl), hu1, he1⟩

theorem eval_cached2 (hc : Fits c J dim dataDim) {cfg : Integrand.Cfg ℝ (Trip ℝ) (Par P R) (TDicts ℝ) ℝ R H D} (hi : IsCfg c dim dataDim cfg) (ha : cfg.analytic = false)
    {n B : Nat} (t : ℝ) (z : Sys2 (Fin n) (Fin B) K K') (s : Integrand.St ℝ (Par P R) ℝ H D × (Nat → R × R)) (hu : s.1.useRnn = true) (he : s.1.external = false)
    (θ : Par P R) (hθ : s.1.cache = some θ ∨ s.1.cache = none ∧ θ = (c.par n (s.2 0).1 z.1 z.2.1, (s.2 0).1)) :
    ∃ s', ofIntegrand cfg t (trip2 J z) s = .ok (dotTrip2 J (fieldWith c θ θ z), s') ∧ s'.1.useRnn = true ∧ s'.1.external = false ∧ s'.1.cache = some θ := by
  obtain ⟨s, rnd⟩ := s
  simp only at hu he hθ
  obtain ⟨s0, hch, hu0, he0, hc0⟩ : ∃ s0 : Integrand.St ℝ (Par P R) ℝ H D, Integrand.chooseParams (rule c true dim dataDim) t (trip2 J z) (rnd 0).1 s = (s0, .ok θ) ∧
      s0.useRnn = true ∧ s0.external = false ∧ s0.cache = some θ := by
    unfold Integrand.chooseParams
    rw [if_pos hu, he, if_neg (by simp)]
    rcases hθ with h | ⟨h, rfl⟩
    · rw [h]
      exact ⟨s, rfl, hu, he, h⟩
    · rw [h]
      simp only [rule_compute2 hc z]
      exact ⟨_, rfl, hu, rfl, rfl⟩
  obtain ⟨s1, hp1, hu1, he1, hc1⟩ : ∃ s1 : Integrand.St ℝ (Par P R) ℝ H D, Integrand.updatePenalty (rule c true dim dataDim) t θ s0 = (s1, .ok ()) ∧
      s1.useRnn = true ∧ s1.external = false ∧ s1.cache = some θ := by
    unfold Integrand.updatePenalty
    rw [he0]
    by_cases ht : t = 0
    · rw [if_pos ht]
      exact ⟨_, rfl, hu0, rfl, hc0⟩
    · rw [if_neg ht]
      exact ⟨s0, rfl, hu0, he0, hc0⟩
  have hla : Integrand.lagrangianParams (rule c true dim dataDim) (trip2 J z) (rnd 0).2 s1 = (s1, .ok θ) := by
    unfold Integrand.lagrangianParams
    rw [if_pos hu1, he1, if_neg (by simp), hc1]
  refine ⟨(s1, fun i => rnd (i + 1)), forward_of_gradients hi.hooks hi.transpose t (trip2 J z) s s1 rnd _ (by
    rw [ha, if_neg (by simp), hi.rule]
    unfold Integrand.gradientsAutodiff
    rw [hch]
    simp only [hp1, rule_state2 hc z, rule_data2 hc z]
    unfold Integrand.costateAutodiff
    rw [hla]
    simp only [rule_costate2 hc z, bind, Except.bind]
    exact rfl), hu1, he1, hc1⟩

/-- The hand-written formulas refuse two blocks (`shooting_integrands.py:632-633`). -/
theorem eval_analytic2 {cfg : Integrand.Cfg ℝ (Trip ℝ) (Par P R) (TDicts ℝ) ℝ R H D} (hi : IsCfg c dim dataDim cfg) (ha : cfg.analytic = true)
    {n B : Nat} (t : ℝ) (z : Sys2 (Fin n) (Fin B) K K') (s : Integrand.St ℝ (Par P R) ℝ H D × (Nat → R × R)) :
    ofIntegrand cfg t (trip2 J z) s = .error .valueError := by
  unfold ofIntegrand Integrand.forward
  rw [hi.transpose, if_neg (by simp)]
  unfold Integrand.gradients
  rw [ha, if_pos rfl]
  unfold Integrand.gradientsAnalytic
  rw [hi.rule, if_pos (by left; show (2 : Nat) ≠ 1; decide)]

end

end Verif.Later
