import Verif.Whole.Eval

/-!
# A block of a class
-/

namespace Verif.Whole
open Verif Verif.Tensor Verif.Assembly Verif.Evolution Verif.Flow

variable {K K' P R H D Θ Rb : Type}

/-- A block whose integrand is of class `c`, whose integrator is `M` and that concatenates its parameters (all classes do). -/
structure IsBlock (c : Cls K K' P R) (M : List ℝ → Method ℝ ℝ) (icfg : Θ → Nat → Integrand.Cfg ℝ (Trip ℝ) (Par P R) (TDicts ℝ) ℝ R H D)
    (s0 : Integrand.St ℝ (Par P R) ℝ H D × (Nat → R × R)) (cfg : Block.Cfg ℝ ℝ Θ Rb) : Prop where
  solve : cfg.solve = solveWith M (fun th dd => ofIntegrand (icfg th dd)) s0
  concatenate : cfg.concatenate = true
  integrand : ∀ th dd, IsCfg c cfg.concatDim dd (icfg th dd)
  dim : DimOk c.lay cfg.concatDim
  key : ∃ s, (cfg.outKey, s) ∈ c.dataLay.names

/-! ## Layouts -/

theorem keeps_layout {c : Cls K K' P R} (hL : c.lay.Ok) (hL' : c.dataLay.Ok) {dim dataDim : Nat} (hd : DimOk c.lay dim) (hdd : DimOk c.dataLay dataDim)
    {cfg : Integrand.Cfg ℝ (Trip ℝ) (Par P R) (TDicts ℝ) ℝ R H D} (hc : IsCfg c dim dataDim cfg) (nm : String) (n B : Nat) :
    KeepsLayout (plansOf c.lay c.dataLay nm n B) (ofIntegrand cfg) := by
  apply C66_integrand
  · intro q x d hx h
    obtain ⟨z, rfl⟩ := layout_trip hL hL' nm x hx
    rw [hc.rule, rule_state c hL nm z _ hd] at h
    cases h
    refine ⟨_, (dotted_single nm c.lay "" n _).symm, good_single nm hL _ _ _, shapes_single nm c.lay _ _ _⟩
  · intro q x d hx h
    obtain ⟨z, rfl⟩ := layout_trip hL hL' nm x hx
    rw [hc.rule, rule_costate c hL nm z _ hd] at h
    cases h
    refine ⟨_, (dotted_single nm c.lay "p_" n _).symm, good_single nm hL _ _ _, shapes_single nm c.lay _ _ _⟩
  · intro q x d hx h
    obtain ⟨z, rfl⟩ := layout_trip hL hL' nm x hx
    rw [hc.rule, rule_data c hL' nm z _ hdd] at h
    cases h
    refine ⟨_, (dotted_single nm c.dataLay "" B _).symm, good_single nm hL' _ _ _, shapes_single nm c.dataLay _ _ _⟩

theorem enc_ne {L : Lay K} (hL : L.Ok) (pre : String) (n : Nat) (x : Fin n × K → ℝ) : enc L pre n x ≠ [] := by
  unfold enc
  simpa using hL.ne

theorem full_trip {L : Lay K} (hL : L.Ok) {L' : Lay K'} (hL' : L'.Ok) (nm : String) {n B : Nat} (z : Sys2 (Fin n) (Fin B) K K') : full (trip L L' nm z) = trip L L' nm z := by
  unfold full trip dropEmptyBlocks
  simp [enc_ne hL, enc_ne hL']

theorem layoutOf_trip (L : Lay K) (L' : Lay K') (nm : String) {n B : Nat} (z : Sys2 (Fin n) (Fin B) K K') : layoutOf (trip L L' nm z) = plansOf L L' nm n B := by
  unfold layoutOf trip plansOf
  simp only [shapes_single]

theorem prepare_first [Zero ℝ] (cfg : Block.Cfg ℝ ℝ Θ Rb) (r : Rb) (X : Tensor ℝ) (s : Block.St ℝ ℝ Θ) {st cs d : TDict ℝ} (hst : s.state = some st)
    (hcs : s.costate = some cs) (hX : cfg.initialData X = .ok d) :
    prepare cfg r ⟨some X, none, none, none⟩ s = (s, .ok ([(cfg.name, st)], [(cfg.name, cs)], [(cfg.name, d)])) := by
  unfold prepare
  simp [Block.checkInputs, Block.passThrough, Block.chooseData, hX, bind, Except.bind, Dicts.merge, Dicts.single, hst, hcs, Block.padData, SDict.set]

/-! ## Stacking -/

theorem tabData_cons {α : Type} (n : Nat) (s : List Nat) (f : List Nat → α) : tabData (n :: s) f = (List.range n).flatMap fun i => tabData s fun idx => f (i :: idx) := rfl

theorem flatMap_range {δ α : Type} (ds : List δ) (f : δ → List α) : ds.flatMap f = (List.range ds.length).flatMap fun i => ((ds[i]?).map f).getD [] := by
  induction ds with
  | nil => rfl
  | cons d ds ih =>
    rw [List.length_cons, List.range_succ_eq_map, List.flatMap_cons, List.flatMap_cons, List.flatMap_map, ih]
    simp

theorem stack_single (nm : String) {L : Lay K} (hL : L.Ok) (pre : String) (n : Nat) {δ : Type} (ds : List δ) (x : δ → Fin n × K → ℝ) :
    stack [(nm, L.names.map fun e => (pre ++ e.1, n :: e.2))] (ds.map fun d => [(nm, enc L pre n (x d))]) = [(nm, encTimes L pre n (ds.map x))] := by
  unfold stack encTimes
  simp only [List.map_cons, List.map_nil, List.map_map, List.length_map]
  congr 2
  apply List.map_congr_left
  intro e he
  simp only [Function.comp_apply]
  congr 1
  unfold tab
  congr 1
  rw [tabData_cons]
  have h1 : ∀ d, tensorData [(nm, enc L pre n (x d))] nm (pre ++ e.1) = tabData (n :: e.2) (value L n (x d) e.1) := by
    intro d
    unfold tensorData
    rw [SDict.get?_cons, if_pos rfl, Option.bind_some, enc_get? hL pre n (x d) he]
    rfl
  rw [List.flatMap_map]
  simp only [h1]
  have h2 : ∀ i ∈ List.range ds.length, (tabData (n :: e.2) fun idx => (Option.map (fun y => value L n y e.1 (i :: idx).tail) (List.map x ds)[(i :: idx).headD 0]?).getD 0)
      = ((ds[i]?).map fun d => tabData (n :: e.2) (value L n (x d) e.1)).getD [] := by
    intro i hi
    rw [List.mem_range] at hi
    simp [hi]
  rw [List.flatMap_congr h2]
  exact flatMap_range ds _

theorem stack_trips (nm : String) {L : Lay K} (hL : L.Ok) {L' : Lay K'} (hL' : L'.Ok) {n B : Nat} (zs : List (Sys2 (Fin n) (Fin B) K K')) :
    stack3 (plansOf L L' nm n B) (zs.map (trip L L' nm)) =
      ([(nm, encTimes L "" n (zs.map fun z => z.1))], [(nm, encTimes L "p_" n (zs.map fun z => z.2.1))], [(nm, encTimes L' "" B (zs.map fun z => z.2.2))]) := by
  unfold stack3 plansOf
  simp only [List.map_map]
  rw [← stack_single nm hL "" n zs, ← stack_single nm hL "p_" n zs, ← stack_single nm hL' "" B zs]
  rfl

/-! ## The last steps of a forward pass -/

theorem encTimes_sorted {L : Lay K} (hL : L.Ok) (pre : String) (n : Nat) (xs : List (Fin n × K → ℝ)) : SDict.Sorted (encTimes L pre n xs) :=
  sorted_pre L.names hL.sorted pre _

theorem finish_single (cfg : Block.Cfg ℝ ℝ Θ Rb) (hc : cfg.concatenate = true) (dd : Nat) (nm : String) {st cs d : TDict ℝ} (h1 : SDict.Sorted st)
    (h2 : SDict.Sorted cs) (h3 : SDict.Sorted d) {t : Tensor ℝ} (ht : SDict.get? d cfg.outKey = some t) :
    Block.finish cfg dd ([(nm, st)], [(nm, cs)], [(nm, d)]) = .ok ⟨.tensor t, [(cfg.name, st)], [(cfg.name, cs)], [(cfg.name, d)]⟩ := by
  unfold Block.finish Dicts.extractKey Dicts.onlyKey Concat.concatNamed
  simp only [hc, if_true, List.foldl_cons, List.foldl_nil, ht, SDict.set, bind, Except.bind, concat_single _ _ h1, concat_single _ _ h2, concat_single _ _ h3, Block.concatResult]

theorem get?_encTimes {L : Lay K} (hL : L.Ok) (n : Nat) (xs : List (Fin n × K → ℝ)) {e : String × List Nat} (he : e ∈ L.names) :
    SDict.get? (encTimes L "" n xs) e.1 = some (tab (xs.length :: n :: e.2) fun idx => ((xs[idx.headD 0]?).map fun x => value L n x e.1 idx.tail).getD 0) :=
  (SDict.get?_eq_some_iff (encTimes_sorted hL "" n xs)).2 (List.mem_map.2 ⟨e, he, by simp⟩)

/-- A forward pass that integrates one block, if one evaluation of the integrand computes `fld` (and the memory of the integrand stays good). -/
theorem forward_at [Fintype K] [Fintype K'] {c : Cls K K' P R} (hL : c.lay.Ok) (hL' : c.dataLay.Ok) {M : List ℝ → Method ℝ ℝ}
    {icfg : Θ → Nat → Integrand.Cfg ℝ (Trip ℝ) (Par P R) (TDicts ℝ) ℝ R H D} {s0 : Integrand.St ℝ (Par P R) ℝ H D × (Nat → R × R)}
    {cfg : Block.Cfg ℝ ℝ Θ Rb} (hb : IsBlock c M icfg s0 cfg) {s : Block.St ℝ ℝ Θ} (hdd : DimOk c.dataLay s.dataDim) {w : Block.When ℝ} (hw : Block.Is s w)
    {n B : Nat} {nm : String} {z : Sys2 (Fin n) (Fin B) K K'} {i : Block.Inp ℝ} (r : Rb) (hprep : prepare cfg r i s = (s, .ok (trip c.lay c.dataLay nm z)))
    {sh : List Nat} (hkey : (cfg.outKey, sh) ∈ c.dataLay.names) (ys : Py (List (Sys2 (Fin n) (Fin B) K K')))
    (hrun : ∃ s', runDict (plansOf c.lay c.dataLay nm n B) (ofIntegrand (icfg s.theta s.dataDim)) (M w.times) [trip c.lay c.dataLay nm z] s0
      = ys.map fun ys => (ys.map (trip c.lay c.dataLay nm), s')) :
    Block.forward cfg r i s = report c.lay c.dataLay cfg.name cfg.outKey sh s w ys := by
  have hf := C66_forward M (fun th dd => ofIntegrand (icfg th dd)) s0 cfg hb.solve r i s w hw (by
    intro x' hx'
    rw [hprep] at hx'
    have hx' := Except.ok.inj hx'
    subst hx'
    rw [hprep]
    change (_ ∧ _ ∧ _) ∧ KeepsLayout (layoutOf (full (trip c.lay c.dataLay nm z))) (ofIntegrand (icfg s.theta s.dataDim))
    refine ⟨⟨good_single _ hL _ _ _, good_single _ hL _ _ _, good_single _ hL' _ _ _⟩, ?_⟩
    rw [full_trip hL hL', layoutOf_trip]
    exact keeps_layout hL hL' hb.dim hdd (hb.integrand _ _) _ _ _)
  rw [hf]
  unfold direct
  rw [hprep]
  obtain ⟨s', hrun⟩ := hrun
  unfold report
  dsimp only
  rw [full_trip hL hL', if_neg (by simp [trip])]
  unfold evolve
  rw [layoutOf_trip, hrun]
  cases ys with
  | error e => rfl
  | ok ys =>
    cases w with
    | upTo t =>
      simp only [Except.map, bind, Except.bind, List.getLast?_map]
      cases hl : ys.getLast? with
      | none => rfl
      | some y =>
        simp only [Option.map_some]
        have := finish_single cfg hb.concatenate s.dataDim nm (enc_sorted hL "" n y.1) (enc_sorted hL "p_" n y.2.1) (enc_sorted hL' "" B y.2.2)
          (t := tab (B :: sh) (value c.dataLay B y.2.2 cfg.outKey)) (by simpa using enc_get? hL' "" B y.2.2 hkey)
        unfold trip
        rw [this]
        rfl
    | vector v =>
      simp only [Except.map, bind, Except.bind]
      rw [stack_trips _ hL hL']
      have := finish_single cfg hb.concatenate s.dataDim nm (encTimes_sorted hL "" n (ys.map fun y => y.1)) (encTimes_sorted hL "p_" n (ys.map fun y => y.2.1))
        (encTimes_sorted hL' "" B (ys.map fun y => y.2.2)) (get?_encTimes hL' B (ys.map fun y => y.2.2) hkey)
      rw [this]
      simp only [outTimes, List.length_map, List.getElem?_map, Option.map_map, Function.comp_def]

/-- ... with an input tensor. -/
theorem forward_sim [Fintype K] [Fintype K'] {c : Cls K K' P R} (hL : c.lay.Ok) (hL' : c.dataLay.Ok) {M : List ℝ → Method ℝ ℝ}
    {icfg : Θ → Nat → Integrand.Cfg ℝ (Trip ℝ) (Par P R) (TDicts ℝ) ℝ R H D} {s0 : Integrand.St ℝ (Par P R) ℝ H D × (Nat → R × R)}
    {cfg : Block.Cfg ℝ ℝ Θ Rb} (hb : IsBlock c M icfg s0 cfg) {s : Block.St ℝ ℝ Θ} (hdd : DimOk c.dataLay s.dataDim) {w : Block.When ℝ} (hw : Block.Is s w)
    {n B : Nat} {q p : Fin n × K → ℝ} {x : Fin B × K' → ℝ} (hq : s.state = some (enc c.lay "" n q)) (hp : s.costate = some (enc c.lay "p_" n p))
    {X : Tensor ℝ} (hX : cfg.initialData X = .ok (enc c.dataLay "" B x)) {sh : List Nat} (hkey : (cfg.outKey, sh) ∈ c.dataLay.names) (r : Rb)
    (ys : Py (List (Sys2 (Fin n) (Fin B) K K')))
    (hrun : ∃ s', runDict (plansOf c.lay c.dataLay cfg.name n B) (ofIntegrand (icfg s.theta s.dataDim)) (M w.times) [trip c.lay c.dataLay cfg.name (q, p, x)] s0
      = ys.map fun ys => (ys.map (trip c.lay c.dataLay cfg.name), s')) :
    Block.forward cfg r ⟨some X, none, none, none⟩ s = report c.lay c.dataLay cfg.name cfg.outKey sh s w ys :=
  forward_at hL hL' hb hdd hw r (prepare_first cfg r X s hq hp hX) hkey ys hrun

end Verif.Whole
