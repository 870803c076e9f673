import Verif.Whole.Props

/-!
# C67: what follows for the outputs of a block
-/

namespace Verif.Whole
open Verif Verif.Tensor Verif.Assembly Verif.Evolution Verif.Flow Verif.Models

variable {K K' P R H D Θ Rb : Type}

/-! ## Maps of systems -/

theorem runSys_map [Fintype K] [Fintype K'] {n B n' B' : Nat} (φ : Sys2 (Fin n) (Fin B) K K' → Sys2 (Fin n') (Fin B') K K')
    (hφ : ∀ g zs, φ (combine g zs) = combine g (zs.map φ)) {F : ℝ → Sys2 (Fin n) (Fin B) K K' → Sys2 (Fin n) (Fin B) K K'}
    {F' : ℝ → Sys2 (Fin n') (Fin B') K K' → Sys2 (Fin n') (Fin B') K K'} (hF : ∀ t z, F' t (φ z) = φ (F t z)) (M : Method ℝ ℝ)
    (hM : Fixed M ∨ ∀ z, sumAll (φ z) = sumAll z) : ∀ zs, runSys F' M (zs.map φ) = (runSys F M zs).map fun ys => ys.map φ := by
  induction M with
  | done outs =>
    intro zs
    unfold runSys
    simp only [Except.map, List.map_map, Function.comp_def, hφ]
  | fail e => intro zs; rfl
  | eval t g next ih =>
    intro zs
    unfold runSys
    rw [← ih (by
      rcases hM with h | h
      · exact .inl h
      · exact .inr h), ← hφ, hF]
    simp
  | test q next ih =>
    intro zs
    rcases hM with h | h
    · exact h.elim
    · unfold runSys
      rw [← ih _ (.inr h), ← hφ, h]

theorem select_combine {n B B' : Nat} (g : Fin B' → Fin B) (h : List ℝ → ℝ) (zs : List (Sys2 (Fin n) (Fin B) K K')) :
    Evolution.select g (combine h zs) = combine h (zs.map (Evolution.select g)) := by
  unfold Evolution.select combine Evolution.rows
  simp only [List.map_map, Function.comp_def]

theorem permute_combine {n B : Nat} (σ : Equiv.Perm (Fin n)) (h : List ℝ → ℝ) (zs : List (Sys2 (Fin n) (Fin B) K K')) :
    permute σ (combine h zs) = combine h (zs.map (permute σ)) := by
  unfold permute combine Evolution.rows
  simp only [List.map_map, Function.comp_def]

theorem permute_sum [Fintype K] [Fintype K'] {n B : Nat} (σ : Equiv.Perm (Fin n)) (z : Sys2 (Fin n) (Fin B) K K') : sumAll (permute σ z) = sumAll z := by
  have h : ∀ x : Fin n × K → ℝ, ∑ k, Evolution.rows σ x k = ∑ k, x k := by
    intro x
    exact Fintype.sum_equiv (σ.prodCongr (Equiv.refl K)) _ _ fun k => rfl
  unfold sumAll permute
  simp only [h]

/-! ## One sample -/

/-- The index of an element of sample `b` in the output: with a vector of times, the first index is the time. -/
def sampleIdx (w : Block.When ℝ) (i b : Nat) (idx : List Nat) : List Nat :=
  match w with
  | .upTo _ => b :: idx
  | .vector _ => i :: b :: idx

theorem tab_get?_none {α : Type} {s : List Nat} {f : List Nat → α} {idx : List Nat} (h : ¬ Valid s idx) : (tab s f).get? idx = none := by
  unfold Tensor.get? tab
  rw [← Option.not_isSome_iff_eq_none, getData?_isSome_iff _ _ (tabData_length _ _), ← valid_iff]
  exact h

theorem report_sample {L : Lay K} {L' : Lay K'} (nm key : String) (sh : List Nat) (s : Block.St ℝ ℝ Θ) (w : Block.When ℝ) {n B B' : Nat} (b : Fin B) (b' : Fin B')
    (ys : Py (List (Sys2 (Fin n) (Fin B) K K'))) (ys' : Py (List (Sys2 (Fin n) (Fin B') K K')))
    (h : (ys.map fun l => l.map (Evolution.select fun _ : Fin 1 => b)) = ys'.map fun l => l.map (Evolution.select fun _ : Fin 1 => b')) :
    (report L L' nm key sh s w ys).1 = (report L L' nm key sh s w ys').1 ∧
    (∀ e, (report L L' nm key sh s w ys).2 = .error e ↔ (report L L' nm key sh s w ys').2 = .error e) ∧
    ∀ o, (report L L' nm key sh s w ys).2 = .ok o → ∃ o' t t', (report L L' nm key sh s w ys').2 = .ok o' ∧ o.state = o'.state ∧ o.costate = o'.costate ∧
      o.result = .tensor t ∧ o'.result = .tensor t' ∧ ∀ i idx, t.get? (sampleIdx w i b.1 idx) = t'.get? (sampleIdx w i b'.1 idx) := by
  have hv : ∀ (y : Sys2 (Fin n) (Fin B) K K') (y' : Sys2 (Fin n) (Fin B') K K'), Evolution.select (fun _ : Fin 1 => b) y = Evolution.select (fun _ : Fin 1 => b') y' →
      y.1 = y'.1 ∧ y.2.1 = y'.2.1 ∧ ∀ idx, value L' B y.2.2 key (b.1 :: idx) = value L' B' y'.2.2 key (b'.1 :: idx) := by
    intro y y' e
    obtain ⟨e1, e2⟩ := Prod.mk.inj e
    obtain ⟨e2, e3⟩ := Prod.mk.inj e2
    refine ⟨e1, e2, fun idx => ?_⟩
    simp only [value, b.2, b'.2, dif_pos]
    cases L'.coord key idx with
    | none => rfl
    | some k =>
      have := congrFun e3 (0, k)
      simpa [Evolution.rows] using this
  cases ys with
  | error e =>
    cases ys' with
    | error e' =>
      cases h
      exact ⟨rfl, fun _ => Iff.rfl, fun o h => by cases h⟩
    | ok l => cases h
  | ok l =>
    cases ys' with
    | error e' => cases h
    | ok l' =>
      have h : l.map (Evolution.select fun _ : Fin 1 => b) = l'.map (Evolution.select fun _ : Fin 1 => b') := Except.ok.inj h
      have hlen : l.length = l'.length := by simpa using congrArg List.length h
      cases w with
      | upTo T =>
        unfold report
        dsimp only
        have hlast : (l.getLast?).map (Evolution.select fun _ : Fin 1 => b) = (l'.getLast?).map (Evolution.select fun _ : Fin 1 => b') := by
          rw [← List.getLast?_map, ← List.getLast?_map, h]
        cases h1 : l.getLast? with
        | none =>
          cases h2 : l'.getLast? with
          | none => exact ⟨rfl, fun _ => Iff.rfl, fun o h => by cases h⟩
          | some y' => rw [h1, h2] at hlast; cases hlast
        | some y =>
          cases h2 : l'.getLast? with
          | none => rw [h1, h2] at hlast; cases hlast
          | some y' =>
            rw [h1, h2] at hlast
            obtain ⟨e1, e2, e3⟩ := hv y y' (Option.some.inj hlast)
            refine ⟨rfl, fun e => ⟨fun h => by (cases h), fun h => by (cases h)⟩, fun o ho => ?_⟩
            cases ho
            refine ⟨_, _, _, rfl, by simp only [outEnd, e1], by simp only [outEnd, e2], rfl, rfl, fun i idx => ?_⟩
            unfold sampleIdx
            by_cases hi : Valid sh idx
            · rw [get?_tab (.cons b.2 hi), get?_tab (.cons b'.2 hi), e3]
            · rw [tab_get?_none (fun h => hi (by cases h; assumption)), tab_get?_none (fun h => hi (by cases h; assumption))]
      | vector v =>
        unfold report
        dsimp only
        refine ⟨rfl, fun e => ⟨fun h => by (cases h), fun h => by (cases h)⟩, fun o ho => ?_⟩
        cases ho
        have hj : ∀ (j : Nat) (h1 : j < l.length) (h2 : j < l'.length), Evolution.select (fun _ : Fin 1 => b) l[j] = Evolution.select (fun _ : Fin 1 => b') l'[j] := by
          intro j h1 h2
          have := List.getElem_of_eq h (i := j) (by simpa using h1)
          simpa using this
        have hs : (l.map fun y => y.1) = l'.map fun y => y.1 := by
          apply List.ext_getElem (by simpa using hlen)
          intro j h1 h2
          simp only [List.getElem_map]
          exact (hv _ _ (hj j (by simpa using h1) (by simpa using h2))).1
        have hc : (l.map fun y => y.2.1) = l'.map fun y => y.2.1 := by
          apply List.ext_getElem (by simpa using hlen)
          intro j h1 h2
          simp only [List.getElem_map]
          exact (hv _ _ (hj j (by simpa using h1) (by simpa using h2))).2.1
        refine ⟨_, _, _, rfl, by simp only [outTimes, hs], by simp only [outTimes, hc], rfl, rfl, fun i idx => ?_⟩
        unfold sampleIdx
        by_cases hi : Valid sh idx ∧ i < l.length
        · rw [get?_tab (.cons hi.2 (.cons b.2 hi.1)), get?_tab (.cons (hlen ▸ hi.2) (.cons b'.2 hi.1))]
          have h2 : i < l'.length := hlen ▸ hi.2
          simp [hi.2, h2, (hv _ _ (hj i hi.2 h2)).2.2]
        · rw [tab_get?_none, tab_get?_none]
          · intro h
            cases h with
            | cons h1 h2 => cases h2 with | cons h3 h4 => exact hi ⟨h4, hlen ▸ h1⟩
          · intro h
            cases h with
            | cons h1 h2 => cases h2 with | cons h3 h4 => exact hi ⟨h4, h1⟩

/-- C67: with a fixed-step method the output for a sample depends on the input for this sample only: not on the other samples of the batch, not on their number, not on
its place among them.  State and costate do not depend on the batch at all. -/
theorem C67_sample [Fintype K] [Fintype K'] {c : Cls K K' P R} (hL : c.lay.Ok) (hL' : c.dataLay.Ok) (hi : Indep c) (hrow : Rowwise c.dataRhs) {M : List ℝ → Method ℝ ℝ} (hfix : ∀ ts, Fixed (M ts))
    {icfg : Θ → Nat → Integrand.Cfg ℝ (Trip ℝ) (Par P R) (TDicts ℝ) ℝ R H D} {s0 : Integrand.St ℝ (Par P R) ℝ H D × (Nat → R × R)}
    {cfg : Block.Cfg ℝ ℝ Θ Rb} (hb : IsBlock c M icfg s0 cfg) (hu : s0.1.useRnn = false) (he : s0.1.external = false)
    {s : Block.St ℝ ℝ Θ} (hdd : DimOk c.dataLay s.dataDim) {w : Block.When ℝ} (hw : Block.Is s w)
    {n B B' : Nat} {q p : Fin n × K → ℝ} {x : Fin B × K' → ℝ} {x' : Fin B' × K' → ℝ} (hq : s.state = some (enc c.lay "" n q)) (hp : s.costate = some (enc c.lay "p_" n p))
    {X X' : Tensor ℝ} (hX : cfg.initialData X = .ok (enc c.dataLay "" B x)) (hX' : cfg.initialData X' = .ok (enc c.dataLay "" B' x')) (r r' : Rb)
    (b : Fin B) (b' : Fin B') (hx : ∀ k, x (b, k) = x' (b', k)) :
    (∀ e, (Block.forward cfg r ⟨some X, none, none, none⟩ s).2 = .error e ↔ (Block.forward cfg r' ⟨some X', none, none, none⟩ s).2 = .error e) ∧
    ∀ o, (Block.forward cfg r ⟨some X, none, none, none⟩ s).2 = .ok o →
      ∃ o' t t', (Block.forward cfg r' ⟨some X', none, none, none⟩ s).2 = .ok o' ∧ o.state = o'.state ∧ o.costate = o'.costate ∧
        o.result = .tensor t ∧ o'.result = .tensor t' ∧ ∀ i idx, t.get? (sampleIdx w i b.1 idx) = t'.get? (sampleIdx w i b'.1 idx) := by
  obtain ⟨sh, hkey⟩ := hb.key
  rw [C67_forward hL hL' hi hb hu he hdd hw hq hp hX hkey r (s0.2 0).1, C67_forward hL hL' hi hb hu he hdd hw hq hp hX' hkey r' (s0.2 0).1]
  have key : ∀ {A : Nat} (a : Fin A) (y : Fin A × K' → ℝ), ((runSys (Evolution.field2 c.rhs c.dataRhs (modeOf c n (s0.2 0).1)) (M w.times) [(q, p, y)]).map
      fun l => l.map (Evolution.select fun _ : Fin 1 => a)) = runSys (Evolution.field2 c.rhs c.dataRhs (modeOf c n (s0.2 0).1)) (M w.times) [(q, p, fun k => y (a, k.2))] := by
    intro A a y
    exact (runSys_map (Evolution.select fun _ : Fin 1 => a) (select_combine _) (fun t z => by simp only [Evolution.field2, Evolution.select, hrow (Fin 1) (Fin A) fun _ => a]) (M w.times)
      (.inl (hfix _)) [(q, p, y)]).symm
  obtain ⟨h1, h2, h3⟩ := report_sample (L := c.lay) (L' := c.dataLay) cfg.name cfg.outKey sh s w b b' _ _ ((key b x).trans (Eq.trans (by simp only [hx]) (key b' x').symm))
  exact ⟨h2, h3⟩

/-! ## The order of the particles -/

/-- Parameters do not depend on the order of the particles, the derivatives of the costate follow it. -/
def Equi (c : Cls K K' P R) : Prop := Rowwise c.rhs ∧ ∀ n r (σ : Equiv.Perm (Fin n)) q p,
  c.par n r (Evolution.rows σ q) (Evolution.rows σ p) = c.par n r q p ∧ ∀ θ, c.cost n θ r (Evolution.rows σ q) (Evolution.rows σ p) = Evolution.rows σ (c.cost n θ r q p)

theorem equi_autodiff [Fintype K] [Fintype P] (L : Lay K) {f : Evolution.Class K P} (hf : Rowwise f) (w : P → Option ℝ) : Equi (autodiffCls L f w) :=
  ⟨hf, fun _ r σ q p => ⟨direct_rows hf w σ r q p, fun _ => costate_rows hf w σ r q p⟩⟩

/-- C67: permuting the particles (and their costates) of a block does not change its output, for every method, also with adaptive step sizes. -/
theorem C67_order [Fintype K] [Fintype K'] {c : Cls K K' P R} (hL : c.lay.Ok) (hL' : c.dataLay.Ok) (hi : Indep c) (heq : Equi c) {M : List ℝ → Method ℝ ℝ}
    {icfg : Θ → Nat → Integrand.Cfg ℝ (Trip ℝ) (Par P R) (TDicts ℝ) ℝ R H D} {s0 : Integrand.St ℝ (Par P R) ℝ H D × (Nat → R × R)}
    {cfg : Block.Cfg ℝ ℝ Θ Rb} (hb : IsBlock c M icfg s0 cfg) (hu : s0.1.useRnn = false) (he : s0.1.external = false)
    {s : Block.St ℝ ℝ Θ} (hdd : DimOk c.dataLay s.dataDim) {w : Block.When ℝ} (hw : Block.Is s w)
    {n B : Nat} {q p : Fin n × K → ℝ} {x : Fin B × K' → ℝ} (hq : s.state = some (enc c.lay "" n q)) (hp : s.costate = some (enc c.lay "p_" n p))
    {X : Tensor ℝ} (hX : cfg.initialData X = .ok (enc c.dataLay "" B x)) (r r' : Rb) (σ : Equiv.Perm (Fin n)) :
    let s' := { s with state := some (enc c.lay "" n (Evolution.rows σ q)), costate := some (enc c.lay "p_" n (Evolution.rows σ p)) }
    ((Block.forward cfg r' ⟨some X, none, none, none⟩ s').2.map fun o => (o.result, o.data)) =
      (Block.forward cfg r ⟨some X, none, none, none⟩ s).2.map fun o => (o.result, o.data) := by
  intro s'
  obtain ⟨sh, hkey⟩ := hb.key
  have hw' : Block.Is s' w := by cases w <;> exact hw
  rw [C67_forward hL hL' hi hb hu he hdd hw hq hp hX hkey r (s0.2 0).1,
    C67_forward (s := s') hL hL' hi hb hu he hdd hw' (q := Evolution.rows σ q) (p := Evolution.rows σ p) rfl rfl hX hkey r' (s0.2 0).1]
  have hF : ∀ t (z : Sys2 (Fin n) (Fin B) K K'), Evolution.field2 c.rhs c.dataRhs (modeOf c n (s0.2 0).1) t (permute σ z) = permute σ (Evolution.field2 c.rhs c.dataRhs (modeOf c n (s0.2 0).1) t z) := by
    intro t z
    have h1 := heq.2 n (s0.2 0).1 σ z.1 z.2.1
    simp only [Evolution.field2, modeOf, permute, h1.1, h1.2, heq.1 (Fin n) (Fin n) σ]
  have hrun := runSys_map (permute σ) (permute_combine σ) hF (M w.times) (.inr (permute_sum σ)) [(q, p, x)]
  have e : List.map (permute σ) [(q, p, x)] = [(Evolution.rows σ q, Evolution.rows σ p, x)] := rfl
  rw [e] at hrun
  rw [hrun]
  cases runSys (Evolution.field2 c.rhs c.dataRhs (modeOf c n (s0.2 0).1)) (M w.times) [(q, p, x)] with
  | error e => rfl
  | ok ys =>
    unfold report
    cases w with
    | upTo T =>
      simp only [Except.map, List.getLast?_map]
      cases ys.getLast? <;> rfl
    | vector v =>
      simp only [Except.map, outTimes, List.length_map, List.getElem?_map, List.map_map, Option.map_map]
      rfl

end Verif.Whole
