import Verif.Later.Run

/-!
# A block that gets the outputs of another block
-/

namespace Verif.Later
open Verif Verif.Tensor Verif.Assembly Verif.Evolution Verif.Flow Verif.Whole

variable {K Ka Kb Kq K' Ka' Kb' P R H D Θ Rb : Type}

/-! ## Zeros for the own state -/

theorem value_zero (L : Lay K) (n : Nat) (name : String) (idx : List Nat) : value L n (fun _ => 0) name idx = 0 := by
  cases idx with
  | nil => rfl
  | cons i idx =>
    simp only [value]
    by_cases h : i < n
    · rw [dif_pos h]
      cases L.coord name idx <;> rfl
    · rw [dif_neg h]

theorem tabData_zero (s : List Nat) (f : List Nat → ℝ) (hf : ∀ i, f i = 0) : tabData s f = List.replicate (vol s) 0 := by
  have h1 := tabData_length s f
  apply List.eq_replicate_iff.2 ⟨h1, ?_⟩
  clear h1
  induction s generalizing f with
  | nil =>
    intro b hb
    simp only [tabData, List.mem_singleton] at hb
    rw [hb, hf]
  | cons n s ih =>
    intro b hb
    obtain ⟨i, _, hb⟩ := List.mem_flatMap.1 hb
    exact ih _ (fun _ => hf _) b hb

theorem zero_enc {Lo : Lay Ka} (hLo : Lo.Ok) {Lp' : Lay Kb} {Lo' : Lay K} (hLo' : Lo'.Ok) {dim dataDim : Nat} (h : Fills Lo Lp' Lo' dim dataDim) (nm : String) {n B : Nat}
    (q : Fin n × Ka → ℝ) (x : Fin B × Kb → ℝ) :
    Dicts.dataConcatDim (some (enc Lo "" n q)) [(nm, enc Lp' "" B x)] dim = .ok (some dataDim) ∧
      Dicts.zeroDataDict (enc Lo "" n q) [(nm, enc Lp' "" B x)] dim dataDim = .ok (enc Lo' "" B fun _ => 0) := by
  obtain ⟨shape, h1, h2, h3, h4⟩ := h.first
  obtain ⟨e0, es, hes⟩ := List.exists_cons_of_ne_nil (show Lp'.names ≠ [] by rintro h0; rw [h0] at h1; cases h1)
  obtain ⟨f0, fs, hfs⟩ := List.exists_cons_of_ne_nil hLo.ne
  rw [hes] at h1
  simp only [List.head?_cons, Option.map_some, Option.some.injEq] at h1
  have hsz : Dicts.sizeOfDicts [(nm, enc Lp' "" B x)] = .ok (B :: shape) := by
    unfold enc
    rw [hes]
    simp only [Dicts.sizeOfDicts, Dicts.sizeOfDict, List.map_cons, tab, h1]
  have hss : Dicts.sizeOfDict (enc Lo "" n q) = .ok (n :: f0.2) := by
    unfold enc
    rw [hfs]
    simp only [Dicts.sizeOfDict, List.map_cons, tab]
  have hf0 : f0 ∈ Lo.names := by rw [hfs]; simp
  constructor
  · unfold Dicts.dataConcatDim
    have := h3 f0 hf0
    simp only [hsz, hss, bind, Except.bind, List.length_cons]
    rw [if_neg (by omega)]
    congr 2
    omega
  · obtain ⟨z, g1, g2, g3⟩ := Dicts.C49_zero_data (enc Lo "" n q) (enc_sorted hLo "" n q) [(nm, enc Lp' "" B x)] dim dataDim _ hsz (by simp only [List.length_cons]; omega) (by
      intro p hp
      obtain ⟨e, he, rfl⟩ := List.mem_map.1 hp
      have := h.state e he
      simp only [tab, List.length_cons]
      omega)
    rw [g1]
    congr 1
    have hzs : SDict.Sorted z := by
      unfold SDict.Sorted
      rw [g2]
      exact enc_sorted hLo "" n q
    apply SDict.ext_get? hzs (enc_sorted hLo' "" B _)
    intro k
    by_cases hk : k ∈ SDict.keys (enc Lo "" n q)
    · obtain ⟨e, he, rfl⟩ : ∃ e ∈ Lo.names, e.1 = k := by
        simpa [SDict.keys, enc] using hk
      have hge := enc_get? hLo "" n q he
      rw [String.empty_append] at hge
      obtain ⟨t, k1, k2, k3, k4, k5⟩ := g3 e.1 _ hge
      have hgo := enc_get? hLo' "" B (fun _ => 0) (e := (e.1, shape.set (dataDim - 1) (dimSize e.2 (dim - 1)))) (by rw [h4]; exact List.mem_map.2 ⟨e, he, rfl⟩)
      rw [String.empty_append] at hgo
      rw [k1, hgo]
      congr 1
      have hd := h.state e he
      obtain ⟨d, rfl⟩ : ∃ d, dim = d + 1 := ⟨dim - 1, by have := h.pos.1; omega⟩
      obtain ⟨dd, rfl⟩ : ∃ dd, dataDim = dd + 1 := ⟨dataDim - 1, by have := h.pos.2; omega⟩
      have hshape : t.shape = B :: shape.set dd (dimSize e.2 d) := by
        apply List.ext_getElem?
        intro j
        by_cases hj : j = dd + 1
        · subst hj
          rw [k4]
          simp only [tab, List.getElem?_cons_succ]
          rw [List.getElem?_set_self (by omega), List.getElem?_eq_getElem (by omega)]
          simp [dimSize, List.getD_eq_getElem?_getD, List.getElem?_eq_getElem (show d < e.2.length by omega)]
        · rw [k5 j hj]
          cases j with
          | zero => rfl
          | succ j =>
            simp only [List.getElem?_cons_succ]
            rw [List.getElem?_set_ne (by omega)]
      obtain ⟨tsh, tdata⟩ := t
      simp only at hshape
      subst hshape
      unfold tab
      simp only [Nat.add_sub_cancel]
      congr 1
      rw [tabData_zero _ _ (value_zero Lo' B e.1)]
      exact List.eq_replicate_iff.2 ⟨k2.1, k2.2⟩
    · have n1 : SDict.get? z k = none := by rw [SDict.get?_eq_none_iff, g2]; exact hk
      have n2 : SDict.get? (enc Lo' "" B fun _ => 0) k = none := by
        rw [SDict.get?_eq_none_iff]
        intro hc
        apply hk
        simpa [SDict.keys, enc, h4] using hc
      rw [n1, n2]

/-! ## What is integrated -/

/-- Pass-through states are not enlarged. -/
def NoEnlarge (cfg : Block.Cfg ℝ ℝ Θ Rb) (s : Block.St ℝ ℝ Θ) : Prop :=
  cfg.enlarge = false ∨ cfg.enlargementDims = none ∧ s.enlState = none ∧ s.enlCostate = none

theorem passThrough_plain (cfg : Block.Cfg ℝ ℝ Θ Rb) (s : Block.St ℝ ℝ Θ) (h : NoEnlarge cfg s) (r : Rb) (S C : TDicts ℝ) :
    Block.passThrough cfg r (some S) (some C) s = (s, .ok (some S, some C)) := by
  unfold Block.passThrough
  dsimp only
  rcases h with he | ⟨he, h1, h2⟩
  · rw [if_neg (by rw [he]; decide)]
  · by_cases hen : cfg.enlarge = true
    · rw [if_pos hen]
      have hg : Block.getOrCreate cfg r S C s = (s, .ok ()) := by
        unfold Block.getOrCreate
        have e1 : ∀ (mk : String → String → Nat → List ℝ) (g : TDicts ℝ) (o : Option (TDict ℝ)), Enlarge.create mk g o none = .ok none := by
          intro mk g o
          cases o <;> rfl
        cases s with
        | mk notYet time tv st co es ec reg dd th =>
          dsimp only at h1 h2
          subst h1 h2
          cases notYet
          · rfl
          · simp [Block.enlExists, he, e1, bind, Except.bind, Block.registerEnl, Block.enlNames, Block.registerAll]
      rw [hg]
      dsimp only
      rw [h1, h2]
      rfl
    · rw [if_neg hen]

theorem prepare_later {Lp : Lay Ka} {Lq : Lay Kq} (hLq : Lq.Ok) {Lo : Lay Kb} (hLo : Lo.Ok) {Lp' : Lay Ka'} (hLp' : Lp'.Ok) {Lo' : Lay Kb'} (hLo' : Lo'.Ok)
    (cfg : Block.Cfg ℝ ℝ Θ Rb) (r : Rb) {s s1 : Block.St ℝ ℝ Θ} {dataDim : Nat} (hf : Fills Lo Lp' Lo' cfg.concatDim dataDim) {nm : String} (hnm : nm ≠ cfg.name) {n B : Nat}
    {qo po : Fin n × Kb → ℝ} (hq : s1.state = some (enc Lo "" n qo)) (hp : s1.costate = some (enc Lo "p_" n po)) (qp pp : Fin n × Ka → ℝ) (qq pq : Fin n × Kq → ℝ) (xp : Fin B × Ka' → ℝ)
    (hpt : Block.passThrough cfg r (some [(nm, enc Lp "" n qp)]) (some [(nm, enc Lp "p_" n pp)]) s = (s1, .ok (some [(nm, enc Lq "" n qq)], some [(nm, enc Lq "p_" n pq)]))) :
    prepare cfg r ⟨none, some [(nm, enc Lp "" n qp)], some [(nm, enc Lp "p_" n pp)], some [(nm, enc Lp' "" B xp)]⟩ s =
      ({ s1 with dataDim := dataDim }, .ok (Block.pair (cfg.name, enc Lo "" n qo) (nm, enc Lq "" n qq), Block.pair (cfg.name, enc Lo "p_" n po) (nm, enc Lq "p_" n pq),
        Block.pair (cfg.name, enc Lo' "" B fun _ => 0) (nm, enc Lp' "" B xp))) := by
  obtain ⟨z1, z2⟩ := zero_enc hLo hLo' hf nm qo xp
  unfold prepare
  simp only [Block.checkInputs, Option.isNone_none, Option.isNone_some, Option.isSome_some, Bool.false_eq_true, and_false, and_self, if_false, ne_eq, not_true_eq_false, Block.chooseData]
  rw [hpt]
  dsimp only
  rw [hq, hp, Block.merge_pair _ _ nm cfg.name hnm (enc_sorted hLq "" n qq), Block.merge_pair _ _ nm cfg.name hnm (enc_sorted hLq "p_" n pq)]
  dsimp only
  unfold Block.padData
  simp only [hq, z1, Option.getD_some, z2, bind, Except.bind, Block.merge_pair _ _ nm cfg.name hnm (enc_sorted hLp' "" B xp), hp]

/-! ## The last steps -/

theorem fits_only {α : Type} {dim : Nat} {d : TDicts α} (h : Concat.Fits dim d) (key : String) : Concat.Fits dim (SDict.mapVals (Dicts.onlyKey key) d) := by
  have hmem : ∀ b ∈ SDict.mapVals (Dicts.onlyKey key) d, ∃ b' ∈ d, b = (b'.1, Dicts.onlyKey key b'.2) := by
    intro b hb
    obtain ⟨b', hb', rfl⟩ := List.mem_map.1 hb
    exact ⟨b', hb', rfl⟩
  have honly : ∀ c : TDict α, Dicts.onlyKey key c = ((SDict.get? c key).map fun t => (key, t)).toList := by
    intro c
    unfold Dicts.onlyKey
    cases SDict.get? c key <;> rfl
  refine ⟨h.sorted.mapVals _, ?_, ?_, ?_, ?_⟩
  · intro b hb
    obtain ⟨b', _, rfl⟩ := hmem b hb
    rw [honly]
    cases SDict.get? b'.2 key <;> simp [SDict.Sorted]
  · intro b hb c hc
    obtain ⟨b', hb', rfl⟩ := hmem b hb
    obtain ⟨c', hc', rfl⟩ := hmem c hc
    have hk := h.sameKeys b' hb' c' hc'
    simp only [honly]
    have : (SDict.get? b'.2 key).isSome = (SDict.get? c'.2 key).isSome := by
      have hn : SDict.get? b'.2 key = none ↔ SDict.get? c'.2 key = none := by rw [SDict.get?_eq_none_iff, SDict.get?_eq_none_iff, hk]
      cases h1 : SDict.get? b'.2 key <;> cases h2 : SDict.get? c'.2 key <;> simp_all
    cases h1 : SDict.get? b'.2 key <;> cases h2 : SDict.get? c'.2 key <;> simp_all [SDict.keys]
  · intro b hb p hp
    obtain ⟨b', hb', rfl⟩ := hmem b hb
    simp only [honly] at hp
    cases h1 : SDict.get? b'.2 key with
    | none => rw [h1] at hp; cases hp
    | some t =>
      rw [h1] at hp
      simp only [Option.map_some, Option.toList_some, List.mem_singleton] at hp
      subst hp
      exact h.wf b' hb' _ (SDict.mem_of_get?_eq_some h1)
  · intro k
    have hsub : ∀ t ∈ Concat.column (SDict.mapVals (Dicts.onlyKey key) d) k, t ∈ Concat.column d k := by
      intro t ht
      obtain ⟨b, hb, hg⟩ := List.mem_filterMap.1 ht
      obtain ⟨b', hb', rfl⟩ := hmem b hb
      refine List.mem_filterMap.2 ⟨b', hb', ?_⟩
      simp only [honly] at hg
      cases h1 : SDict.get? b'.2 key with
      | none => rw [h1] at hg; cases hg
      | some t' =>
        rw [h1] at hg
        simp only [Option.map_some, Option.toList_some, SDict.get?_cons] at hg
        split at hg
        · rename_i hkk
          rw [← hkk, h1]
          exact hg
        · cases hg
    intro t ht t' ht'
    exact h.compat k t (hsub t ht) t' (hsub t' ht')

section
variable {J : Lays Ka Kb K Ka' Kb' K'} {c : Cls K K' P R} {dim dataDim : Nat}

/-- The output tensor of two blocks. -/
theorem result_two {L : Lay K} {La : Lay Ka} {Lb : Lay Kb} {e : Ka ⊕ Kb ≃ K} (hL : L.Ok) (hLa : La.Ok) (hLb : Lb.Ok) (h : Joined L La Lb e dim) {a b : String} (hab : a < b) (n : Nat)
    (x : Fin n × K → ℝ) {key : String} {sh : List Nat} (hk : (key, sh) ∈ L.names) :
    ∃ ex, Dicts.extractKey (two La Lb e a b "" n x) key = .ok ex ∧ Block.concatResult dim ex = .ok (.tensor (tab (n :: sh) (value L n x key))) := by
  refine ⟨_, Block.extractKey_eq _ (two_sorted La Lb e hab "" n x) (by simp [two]) key, ?_⟩
  have hf := fits_two hLa hLb h hab "" n x
  have hf1 := fits_only hf key
  obtain ⟨c0, k1, k2, _⟩ := Concat.concatDicts_eq (b := (a, enc La "" n (left e x))) (d := [(b, enc Lb "" n (right e x))]) hf
  have hc0 : c0 = enc L "" n x := Except.ok.inj (k1.symm.trans (concat_two hL hLa hLb h hab "" n x))
  subst hc0
  have hget : SDict.get? (enc L "" n x) key = some (tab (n :: sh) (value L n x key)) := by simpa using enc_get? hL "" n x hk
  rw [k2.get key] at hget
  obtain ⟨ta, hta⟩ : ∃ ta, SDict.get? (enc La "" n (left e x)) key = some ta := by
    obtain ⟨l, ha, _, hl, _⟩ := h.parts
    rw [hl] at hk
    obtain ⟨p, hp, he⟩ := List.mem_map.1 hk
    cases he
    have := enc_get? hLa "" n (left e x) (e := (p.1, p.2.1)) (by rw [ha]; exact List.mem_map.2 ⟨p, hp, rfl⟩)
    rw [String.empty_append] at this
    exact ⟨_, this⟩
  obtain ⟨tb, htb⟩ : ∃ tb, SDict.get? (enc Lb "" n (right e x)) key = some tb := by
    obtain ⟨l, _, hb, hl, _⟩ := h.parts
    rw [hl] at hk
    obtain ⟨p, hp, he⟩ := List.mem_map.1 hk
    cases he
    have := enc_get? hLb "" n (right e x) (e := (p.1, p.2.2)) (by rw [hb]; exact List.mem_map.2 ⟨p, hp, rfl⟩)
    rw [String.empty_append] at this
    exact ⟨_, this⟩
  have hm : SDict.mapVals (Dicts.onlyKey key) (two La Lb e a b "" n x) = [(a, [(key, ta)]), (b, [(key, tb)])] := by
    simp [SDict.mapVals, two, Dicts.onlyKey, hta, htb, SDict.set]
  rw [hm] at hf1 ⊢
  obtain ⟨c1, g1, g2, g3⟩ := Concat.concatDicts_eq hf1
  have hcol : Concat.column [(a, [(key, ta)]), (b, [(key, tb)])] key = Concat.column [(a, enc La "" n (left e x)), (b, enc Lb "" n (right e x))] key := by
    simp [Concat.column, hta, htb, SDict.get?_cons]
  have hg := g2.get key
  rw [hcol, hget] at hg
  have hc1 : c1 = [(key, tab (n :: sh) (value L n x key))] := by
    have hkeys : c1.map (fun p => p.1) = [key] := g3
    obtain ⟨p, rfl⟩ : ∃ p, c1 = [p] := by
      rw [← List.length_eq_one_iff]
      simpa using congrArg List.length hkeys
    obtain ⟨k', t'⟩ := p
    simp only [List.map_cons, List.map_nil, List.cons.injEq, and_true] at hkeys
    subst hkeys
    simp only [SDict.get?_cons, if_true, Option.some.injEq] at hg
    rw [hg]
  unfold Block.concatResult
  dsimp only
  rw [g1, hc1]
  rfl

theorem finish_two (hc : Fits c J dim dataDim) (cfg : Block.Cfg ℝ ℝ Θ Rb) (hcat : cfg.concatenate = true) (hdim : cfg.concatDim = dim) {n B : Nat} (z : Sys2 (Fin n) (Fin B) K K')
    {sh : List Nat} (hk : (cfg.outKey, sh) ∈ c.dataLay.names) :
    Block.finish cfg dataDim (trip2 J z) = .ok (outEnd c.lay c.dataLay cfg.name cfg.outKey sh z) := by
  obtain ⟨ex, h1, h2⟩ := result_two hc.dataLay hc.ok.a' hc.ok.b' hc.data hc.ok.lt B z.2.2 hk
  unfold Block.finish trip2 Concat.concatNamed
  rw [hdim]
  simp only [h1, hcat, if_true, bind, Except.bind, concat_two hc.lay hc.ok.a hc.ok.b hc.state hc.ok.lt, concat_two hc.dataLay hc.ok.a' hc.ok.b' hc.data hc.ok.lt, h2]
  rfl

/-! ## The forward pass -/

theorem keeps_layout2 (hc : Fits c J dim dataDim) {cfg : Integrand.Cfg ℝ (Trip ℝ) (Par P R) (TDicts ℝ) ℝ R H D} (hi : IsCfg c dim dataDim cfg) (n B : Nat) :
    KeepsLayout (plans2 J n B) (ofIntegrand cfg) := by
  apply C66_integrand
  · intro q x d hx h
    obtain ⟨z, rfl⟩ := layout_trip2 hc.ok x hx
    rw [hi.rule, rule_state2 hc z] at h
    cases h
    exact ⟨_, (dotted_two J.La J.Lb J.e J.fst J.snd "" n _).symm, good_two hc.ok.a hc.ok.b hc.ok.lt _ _ _, shapes_two _ _ _ _ _ _ _ _⟩
  · intro q x d hx h
    obtain ⟨z, rfl⟩ := layout_trip2 hc.ok x hx
    rw [hi.rule, rule_costate2 hc z] at h
    cases h
    exact ⟨_, (dotted_two J.La J.Lb J.e J.fst J.snd "p_" n _).symm, good_two hc.ok.a hc.ok.b hc.ok.lt _ _ _, shapes_two _ _ _ _ _ _ _ _⟩
  · intro q x d hx h
    obtain ⟨z, rfl⟩ := layout_trip2 hc.ok x hx
    rw [hi.rule, rule_data2 hc z] at h
    cases h
    exact ⟨_, (dotted_two J.La' J.Lb' J.e' J.fst J.snd "" B _).symm, good_two hc.ok.a' hc.ok.b' hc.ok.lt _ _ _, shapes_two _ _ _ _ _ _ _ _⟩

theorem full_trip2 (hJ : J.Ok) {n B : Nat} (z : Sys2 (Fin n) (Fin B) K K') : full (trip2 J z) = trip2 J z := by
  unfold full trip2 dropEmptyBlocks two
  simp [enc_ne hJ.a, enc_ne hJ.b, enc_ne hJ.a', enc_ne hJ.b']

theorem layoutOf_trip2 (J : Lays Ka Kb K Ka' Kb' K') {n B : Nat} (z : Sys2 (Fin n) (Fin B) K K') : layoutOf (trip2 J z) = plans2 J n B := by
  unfold layoutOf trip2 plans2
  simp only [shapes_two]

/-- A forward pass that integrates two blocks up to one time. -/
theorem forward_sim2 [Fintype K] [Fintype K'] {M : List ℝ → Method ℝ ℝ} {icfg : Θ → Nat → Integrand.Cfg ℝ (Trip ℝ) (Par P R) (TDicts ℝ) ℝ R H D}
    {s0 : Integrand.St ℝ (Par P R) ℝ H D × (Nat → R × R)} {cfg : Block.Cfg ℝ ℝ Θ Rb} (hb : IsBlock c M icfg s0 cfg) (hc : Fits c J cfg.concatDim dataDim) {s s1 : Block.St ℝ ℝ Θ}
    {t : ℝ} (hw : Block.Is s (.upTo t)) (hs1 : s1.theta = s.theta) (hdd : s1.dataDim = dataDim) {i : Block.Inp ℝ} (r : Rb) {n B : Nat} {z : Sys2 (Fin n) (Fin B) K K'}
    (hprep : prepare cfg r i s = (s1, .ok (trip2 J z))) {sh : List Nat} (hkey : (cfg.outKey, sh) ∈ c.dataLay.names) (ys : Py (List (Sys2 (Fin n) (Fin B) K K')))
    (hrun : ∃ s', runDict (plans2 J n B) (ofIntegrand (icfg s.theta dataDim)) (M [0, t]) [trip2 J z] s0 = ys.map fun ys => (ys.map (trip2 J), s')) :
    Block.forward cfg r i s = report c.lay c.dataLay cfg.name cfg.outKey sh s1 (.upTo t) ys := by
  have hf := C66_forward M (fun th dd => ofIntegrand (icfg th dd)) s0 cfg hb.solve r i s (.upTo t) hw (by
    intro x' hx'
    rw [hprep] at hx'
    have hx' := Except.ok.inj hx'
    subst hx'
    rw [hprep]
    refine ⟨⟨good_two hc.ok.a hc.ok.b hc.ok.lt _ _ _, good_two hc.ok.a hc.ok.b hc.ok.lt _ _ _, good_two hc.ok.a' hc.ok.b' hc.ok.lt _ _ _⟩, ?_⟩
    rw [full_trip2 hc.ok, layoutOf_trip2]
    dsimp only
    rw [hdd]
    exact keeps_layout2 hc (hb.integrand _ _) _ _)
  rw [hf]
  unfold direct
  rw [hprep]
  obtain ⟨s', hrun⟩ := hrun
  unfold report
  dsimp only
  rw [full_trip2 hc.ok, if_neg (by simp [trip2, two]), hs1, hdd]
  unfold evolve
  rw [layoutOf_trip2, show Block.When.times (.upTo t) = [0, t] from rfl, hrun]
  cases ys with
  | error e => rfl
  | ok ys =>
    simp only [Except.map, bind, Except.bind, List.getLast?_map]
    cases hl : ys.getLast? with
    | none => rfl
    | some y =>
      simp only [Option.map_some]
      rw [finish_two hc cfg hb.concatenate rfl y hkey]

end

end Verif.Later
