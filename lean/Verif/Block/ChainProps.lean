import Verif.Block.Chain

/-!
# C41: chains of blocks
-/

namespace Verif.Block
open Verif Tensor

variable {α T Θ R : Type}

/-! ## Rejection -/

/-- C41: a block rejects pass-through states, costates that already carry its own name (also when it has no state of its own). -/
theorem C41_reject [Zero α] (cfg : Cfg α T Θ R) (r : R) (i : Inp α) (s : St α T Θ) (s' : St α T Θ) (S C : TDicts α)
    (hp : passThrough cfg r i.state i.costate s = (s', .ok (some S, some C))) (hn : cfg.name ∈ SDict.keys S ∨ cfg.name ∈ SDict.keys C) :
    ∃ e, (forward cfg r i s).2 = .error e ∧ ((∃ D, chooseData cfg i.x i.data = .ok D) → checkInputs i = .ok () → e = .valueError) := by
  unfold forward
  cases hc : checkInputs i with
  | error e => exact ⟨e, rfl, fun _ h => by cases h⟩
  | ok u =>
    rw [hp]
    dsimp only
    cases hd : chooseData cfg i.x i.data with
    | error e => exact ⟨e, rfl, fun ⟨D, h⟩ _ => by cases h⟩
    | ok D =>
      have hin : initial cfg D.1 (some S) (some C) D.2 s' = (s', .error .valueError) := by
        unfold initial
        rcases hn with hn | hn
        · rw [(Dicts.C05_merge_raises_iff s'.state (some S) cfg.name).1.2 ⟨S, rfl, hn⟩]
        · rw [(Dicts.C05_merge_raises_iff s'.costate (some C) cfg.name).1.2 ⟨C, rfl, hn⟩]
          cases hm : Dicts.merge s'.state (some S) cfg.name with
          | error e =>
            have : e = .valueError := by
              by_cases hk : cfg.name ∈ SDict.keys S
              · rw [(Dicts.C05_merge_raises_iff s'.state (some S) cfg.name).1.2 ⟨S, rfl, hk⟩] at hm
                cases hm
                rfl
              · obtain ⟨x, hx⟩ := (Dicts.C05_merge_raises_iff s'.state (some S) cfg.name).2.2 (by rintro ⟨d, hd, hm'⟩; cases hd; exact hk hm')
                rw [hx] at hm
                cases hm
            rw [this]
          | ok x => rfl
      dsimp only
      rw [hin]
      exact ⟨_, rfl, fun _ _ => rfl⟩

/-- C41: the same for the data dictionary, for blocks with a state of their own. -/
theorem C41_reject_data [Zero α] (cfg : Cfg α T Θ R) (r : R) (i : Inp α) (s : St α T Θ) (st : TDict α) (hs : s.state = some st)
    (d : TDicts α) (hd : i.data = some d) (hn : cfg.name ∈ SDict.keys d) : ∃ e, (forward cfg r i s).2 = .error e := by
  cases hf : (forward cfg r i s).2 with
  | error e => exact ⟨e, rfl⟩
  | ok o =>
    exfalso
    unfold forward at hf
    split at hf
    · cases hf
    split at hf
    · cases hf
    rename_i s1 ps pc hpt
    have h1 := (passThrough_same cfg r i.state i.costate s).1
    rw [hpt] at h1
    split at hf
    · cases hf
    rename_i data pad hch
    have hdp : data = d ∧ pad = true := by
      unfold chooseData at hch
      rw [hd] at hch
      cases hx : i.x with
      | some x => rw [hx] at hch; cases hch
      | none => rw [hx] at hch; cases hch; exact ⟨rfl, rfl⟩
    obtain ⟨rfl, rfl⟩ := hdp
    split at hf
    · cases hf
    rename_i s2 x0 plans hi
    unfold initial at hi
    split at hi
    · cases hi
    · cases hi
    split at hi
    · cases hi
    rename_i hpad
    unfold padData at hpad
    rw [show s1.state = some st from h1.state.trans hs] at hpad
    dsimp only at hpad
    split at hpad
    · cases hpad
    simp only [Prod.mk.injEq] at hpad
    obtain ⟨_, hz⟩ := hpad
    simp only [bind, Except.bind] at hz
    split at hz
    · cases hz
    rw [(Dicts.C05_merge_raises_iff _ (some data) cfg.name).1.2 ⟨data, rfl, hn⟩] at hz
    cases hz

/-- What is passed on to the next block. -/
def passOn (o : Out α) : Inp α := ⟨none, some o.state, some o.costate, some o.data⟩

example : (forward (demo "a" true) () demoPass (demoBlock 1)).2 = .error .valueError := rfl

/-- Defect: enlargement parameters from an earlier pass hide a repeated name.  Block "b" was first used after block "a" only; given
states of "a" and "b" later, it drops "b" silently instead of rejecting it. -/
theorem C41_hidden_name :
    ∃ (cfg : Cfg ℤ ℤ Unit Unit) (s : St ℤ ℤ Unit) (i i' : Inp ℤ) (S C : TDicts ℤ) (o o' : Out ℤ),
      i'.state = some S ∧ i'.costate = some C ∧ cfg.name ∈ SDict.keys S ∧ cfg.name ∈ SDict.keys C ∧
      (forward cfg () i s).2 = .ok o ∧ (forward cfg () i' (forward cfg () i s).1).2 = .ok o' ∧ o'.state = o.state := by
  refine ⟨demo "b" true, demoBlock 2, demoPass, { demoPass with
    state := some [("a", [("q1", ⟨[1, 1, 1], [2]⟩)]), ("b", [("q1", ⟨[1, 1, 1], [9]⟩)])]
    costate := some [("a", [("p_q1", ⟨[1, 1, 1], [3]⟩)]), ("b", [("p_q1", ⟨[1, 1, 1], [9]⟩)])] }, _, _, _, _, rfl, rfl, ?_, ?_, rfl, rfl, rfl⟩
  · simp [demo]
  · simp [demo]

/-! ## The concatenated output -/

/-- C41: with concatenation the outputs carry exactly one block, the current one. -/
theorem C41_output_one_block [Zero α] (cfg : Cfg α T Θ R) (hc : cfg.concatenate = true) (r : R) (i : Inp α) (s : St α T Θ) (o : Out α)
    (ho : (forward cfg r i s).2 = .ok o) :
    SDict.keys o.state = [cfg.name] ∧ SDict.keys o.costate = [cfg.name] ∧ SDict.keys o.data = [cfg.name] := by
  unfold forward at ho
  split at ho
  · cases ho
  split at ho
  · cases ho
  split at ho
  · cases ho
  split at ho
  · cases ho
  rename_i s2 x0 plans _
  split at ho
  · cases ho
  rename_i o' hfin
  cases ho
  revert hfin
  cases integrate cfg x0 plans s2 with
  | error e => intro h; cases h
  | ok y =>
    intro h
    simp only [bind, Except.bind] at h
    unfold finish at h
    revert h
    cases Dicts.extractKey y.2.2 cfg.outKey with
    | error e => intro h; cases h
    | ok ex =>
      simp only [bind, Except.bind, hc, if_true]
      unfold Concat.concatNamed
      simp only [bind, Except.bind]
      cases Concat.concatDicts y.1 cfg.concatDim with
      | error e => intro h; cases h
      | ok a =>
        cases Concat.concatDicts y.2.1 cfg.concatDim with
        | error e => intro h; cases h
        | ok b =>
          cases Concat.concatDicts y.2.2 s2.dataDim with
          | error e => intro h; cases h
          | ok c =>
            simp only
            cases concatResult s2.dataDim ex with
            | error e => intro h; cases h
            | ok t =>
              intro h
              cases h
              exact ⟨rfl, rfl, rfl⟩

example : ∃ o, (forward (demo "b" true) () demoPass (demoBlock 1)).2 = .ok o ∧ o.state = [("b", [("q1", ⟨[1, 1, 2], [3, 2]⟩)])] := ⟨_, rfl, rfl⟩

/-! ## One link of a chain -/

theorem forward_eq [Zero α] (cfg : Cfg α T Θ R) (r : R) (i : Inp α) (s s1 s2 : St α T Θ) (ps pc : Option (TDicts α)) (data : TDicts α) (pad : Bool)
    (x0 : List α) (plans : Assembly.AllPlans) (y : TDicts α × TDicts α × TDicts α) (o : Out α) (h1 : checkInputs i = .ok ())
    (h2 : passThrough cfg r i.state i.costate s = (s1, .ok (ps, pc))) (h3 : chooseData cfg i.x i.data = .ok (data, pad))
    (h4 : initial cfg data ps pc pad s1 = (s2, .ok (x0, plans))) (h5 : integrate cfg x0 plans s2 = .ok y) (h6 : finish cfg s2.dataDim y = .ok o) :
    forward cfg r i s = ({ s2 with notYet := false }, .ok o) := by
  unfold forward
  rw [h1, h2]
  dsimp only
  rw [h3]
  dsimp only
  rw [h4]
  dsimp only
  rw [h5]
  simp only [bind, Except.bind]
  rw [h6]

/-- Families of states, costates and data that go together: costates may have other keys and shapes; all data tensors have the same
sizes outside the concatenation dimension (zeros for new blocks are made after the first of them). -/
structure Fams where
  F : Fam
  G : Fam
  H : Fam
  db : List Nat
  goodF : F.Good
  goodG : G.Good
  goodH : H.Good
  sameDim : G.dim = F.dim
  keys : H.keys = F.keys
  base : H.base = fun _ => db
  rank : ∀ k ∈ F.keys, (F.base k).length ≤ db.length ∧ H.dim + (F.base k).length = F.dim + db.length

/-- A single integration time is in force, and the integrator returns rows of the right length. -/
def Solves [OfNat T 0] (cfg : Cfg α T Θ R) (s : St α T Θ) : Prop :=
  ∃ t, Is s (.upTo t) ∧ ∀ th d p (x0 : List α), ∃ rows row, cfg.solve th d p x0 [0, t] = .ok (some rows) ∧
    rows.getLast? = some row ∧ row.length = x0.length

/-- A block with concatenation, own states of sizes `v` and costates of sizes `cv`. -/
structure Able (X : Fams) [OfNat T 0] (cfg : Cfg α T Θ R) (s : St α T Θ) (v cv : String → Nat) : Prop where
  concat : cfg.concatenate = true
  dim : cfg.concatDim = X.F.dim
  out : cfg.outKey ∈ X.H.keys
  own : ∃ d, s.state = some d ∧ Has X.F v d
  cown : ∃ d, s.costate = some d ∧ Has X.G cv d
  time : Solves cfg s

/-- ... in which pass-through states are not enlarged. -/
structure Ready (X : Fams) [OfNat T 0] (cfg : Cfg α T Θ R) (s : St α T Θ) (v cv : String → Nat) : Prop extends Able X cfg s v cv where
  noEnlarge : cfg.enlarge = false ∨ cfg.enlargementDims = none ∧ s.enlState = none ∧ s.enlCostate = none

/-- Outputs (or inputs) carried by the block called `n`: one block each, of the given sizes. -/
def Carried (X : Fams) (n : String) (w cw dw : String → Nat) (S C D : TDicts α) : Prop :=
  ∃ s c d, S = [(n, s)] ∧ C = [(n, c)] ∧ D = [(n, d)] ∧ Has X.F w s ∧ Has X.G cw c ∧ Has X.H dw d

theorem passThrough_none (X : Fams) [OfNat T 0] (cfg : Cfg α T Θ R) (s : St α T Θ) (v cv : String → Nat) (h : Ready X cfg s v cv) (r : R)
    (S C : TDicts α) : passThrough cfg r (some S) (some C) s = (s, .ok (some S, some C)) := by
  unfold passThrough
  dsimp only
  rcases h.noEnlarge with he | ⟨he, h1, h2⟩
  · rw [if_neg (by rw [he]; decide)]
  · by_cases hen : cfg.enlarge = true
    · rw [if_pos hen]
      have hg : getOrCreate cfg r S C s = (s, .ok ()) := by
        unfold getOrCreate
        have e1 : ∀ (mk : String → String → Nat → List α) (g : TDicts α) (o : Option (TDict α)), Enlarge.create mk g o none = .ok none := by
          intro mk g o
          cases o <;> rfl
        cases s with
        | mk notYet time tv st co es ec reg dd th =>
          dsimp only at h1 h2
          subst h1 h2
          cases notYet
          · rfl
          · simp [enlExists, he, e1, bind, Except.bind, registerEnl, enlNames, registerAll]
      rw [hg]
      dsimp only
      rw [h1, h2]
      rfl
    · rw [if_neg hen]

/-- Integration to a single time of any blocks of the families. -/
theorem integrate_has (X : Fams) [OfNat T 0] (cfg : Cfg α T Θ R) (s : St α T Θ) (hr : Solves cfg s)
    (st cs d : TDicts α) (w cw dw : String → String → Nat)
    (ss : SDict.Sorted st) (sc : SDict.Sorted cs) (sd : SDict.Sorted d) (ns : st ≠ []) (nc : cs ≠ []) (nd : d ≠ [])
    (hs : ∀ b ∈ st, Has X.F (w b.1) b.2) (hc : ∀ b ∈ cs, Has X.G (cw b.1) b.2) (hd : ∀ b ∈ d, Has X.H (dw b.1) b.2) :
    ∃ x0 plans, Assembly.assembleTensor st cs d = .ok (x0, plans) ∧ ∀ s' : St α T Θ, s'.time = s.time → s'.timeVector = s.timeVector →
      ∃ S C D, integrate cfg x0 plans s' = .ok (S, C, D) ∧
        (SDict.keys S = SDict.keys st ∧ ∀ b ∈ S, Has X.F (w b.1) b.2) ∧ (SDict.keys C = SDict.keys cs ∧ ∀ b ∈ C, Has X.G (cw b.1) b.2) ∧
        (SDict.keys D = SDict.keys d ∧ ∀ b ∈ D, Has X.H (dw b.1) b.2) := by
  obtain ⟨x0, plans, ha, hround⟩ := roundtrip_has X.goodF X.goodG X.goodH st cs d w cw dw ss sc sd ns nc nd hs hc hd
  refine ⟨x0, plans, ha, ?_⟩
  intro s' e1 e2
  obtain ⟨t, ⟨ht1, ht2⟩, hsol⟩ := hr
  obtain ⟨rows, row, h1, h2, h3⟩ := hsol s'.theta s'.dataDim plans x0
  obtain ⟨S, C, D, h4, h5⟩ := hround row h3
  refine ⟨S, C, D, ?_, h5⟩
  unfold integrate
  rw [e1, e2, ht1, ht2]
  dsimp only
  rw [h1]
  simp only [bind, Except.bind]
  rw [h2]
  exact h4

/-- What a successful link of a chain means: the outputs carry only the block's own name and have the given sizes; the returned value
is the output key of the concatenated data; and nothing is lost: splitting the outputs gives back the integrated blocks, which are the
block itself and the one before it. -/
def GoodLink (X : Fams) (cfg : Cfg α T Θ R) (n : String) (w cw dw : String → Nat) (s' : St α T Θ) (o : Out α) : Prop :=
  Carried X cfg.name w cw dw o.state o.costate o.data ∧
  (∃ t, o.result = .tensor t ∧ Dicts.lookup o.data cfg.name cfg.outKey = some t) ∧
  ∃ x0 plans Si Ci Di so co dd, integrate cfg x0 plans s' = .ok (Si, Ci, Di) ∧
    (∀ b, b ∈ SDict.keys Si ↔ b = cfg.name ∨ b = n) ∧ (∀ b, b ∈ SDict.keys Ci ↔ b = cfg.name ∨ b = n) ∧
    (∀ b, b ∈ SDict.keys Di ↔ b = cfg.name ∨ b = n) ∧
    o.state = [(cfg.name, so)] ∧ o.costate = [(cfg.name, co)] ∧ o.data = [(cfg.name, dd)] ∧
    Concat.splitDicts so Si (X.F.dim : Int) = .ok Si ∧ Concat.splitDicts co Ci (X.G.dim : Int) = .ok Ci ∧
    Concat.splitDicts dd Di (X.H.dim : Int) = .ok Di

/-- One link, given what the block makes of the pass-through states. -/
theorem step_core [Zero α] [OfNat T 0] (X : Fams) (cfg : Cfg α T Θ R) (s0 s : St α T Θ) (v cv : String → Nat) (hr : Able X cfg s v cv)
    (r : R) (n : String) (hn : n ≠ cfg.name) (w cw dw : String → Nat) (S0 C0 S C D : TDicts α) (hX : Carried X n w cw dw S C D)
    (hpt : passThrough cfg r (some S0) (some C0) s0 = (s, .ok (some S, some C))) :
    ∃ s' o, forward cfg r ⟨none, some S0, some C0, some D⟩ s0 = (s', .ok o) ∧ s' = { s with dataDim := X.H.dim, notYet := false } ∧
      GoodLink X cfg n (fun k => v k + w k) (fun k => cv k + cw k) (fun k => v k + dw k) s' o := by
  obtain ⟨st, ct, dt, rfl, rfl, rfl, hst, hct, hdt⟩ := hX
  obtain ⟨own, ho, hown⟩ := hr.own
  obtain ⟨cown, hco, hcown⟩ := hr.cown
  have hn' : cfg.name ≠ n := fun h => hn h.symm
  -- the blocks that are integrated
  obtain ⟨hdim, z, hz, hzh⟩ := zero_has X.goodF X.goodH X.keys X.db X.base X.rank own v hown n dt dw hdt
  have m1 := merge_pair own st n cfg.name hn hst.sorted
  have m2 := merge_pair cown ct n cfg.name hn hct.sorted
  have m3 := merge_pair z dt n cfg.name hn hdt.sorted
  -- widths by block name
  let pw (a b : String → Nat) : String → String → Nat := fun b' => if b' = cfg.name then a else b
  have hpair : ∀ {F : Fam} (a b : String → Nat) (x y : TDict α), Has F a x → Has F b y →
      ∀ b' ∈ pair (cfg.name, x) (n, y), Has F (pw a b b'.1) b'.2 := by
    intro F a b x y hx hy b' hb'
    rcases (mem_pair _ _ _).1 hb' with rfl | rfl
    · simpa [pw] using hx
    · simpa [pw, hn] using hy
  obtain ⟨x0, plans, ha, hint⟩ := integrate_has X cfg s hr.time (pair (cfg.name, own) (n, st)) (pair (cfg.name, cown) (n, ct))
    (pair (cfg.name, z) (n, dt)) (pw v w) (pw cv cw) (pw v dw) (sorted_pair _ _ hn') (sorted_pair _ _ hn') (sorted_pair _ _ hn')
    (pair_ne_nil _ _) (pair_ne_nil _ _) (pair_ne_nil _ _) (hpair v w own st hown hst) (hpair cv cw cown ct hcown hct) (hpair v dw z dt hzh hdt)
  let s2 : St α T Θ := { s with dataDim := X.H.dim }
  have hinit : initial cfg [(n, dt)] (some [(n, st)]) (some [(n, ct)]) true s = (s2, .ok (x0, plans)) := by
    unfold initial
    rw [ho, hco, m1, m2]
    dsimp only
    unfold padData
    rw [ho]
    dsimp only
    rw [hr.dim, hdim]
    simp only [Option.getD_some, bind, Except.bind, hz, m3]
    rw [ha, ← ho]
  obtain ⟨Si, Ci, Di, hi, ⟨k1, g1⟩, ⟨k2, g2⟩, ⟨k3, g3⟩⟩ := hint s2 rfl rfl
  have sorted_of : ∀ {x y : TDict α} {Z : TDicts α}, SDict.keys Z = SDict.keys (pair (cfg.name, x) (n, y)) → SDict.Sorted Z ∧ Z.length = 2 ∧ Z ≠ [] := by
    intro x y Z hZ
    have hl : Z.length = 2 := by
      have := congrArg List.length hZ
      rw [SDict.keys, SDict.keys, List.length_map, List.length_map, length_pair] at this
      exact this
    exact ⟨sorted_of_keys hZ (sorted_pair _ _ hn'), hl, by rintro rfl; cases hl⟩
  have sums : ∀ (a b : String → Nat) {x y : TDict α} {Z : TDicts α}, SDict.keys Z = SDict.keys (pair (cfg.name, x) (n, y)) →
      ∀ k, (Z.map fun b' => pw a b b'.1 k).sum = a k + b k := by
    intro a b x y Z hZ k
    have e : (Z.map fun b' => pw a b b'.1 k) = (SDict.keys Z).map (fun nm => pw a b nm k) := by simp [SDict.keys]
    have e' : ((pair (cfg.name, x) (n, y)).map fun b' => pw a b b'.1 k) = (SDict.keys (pair (cfg.name, x) (n, y))).map (fun nm => pw a b nm k) := by
      simp [SDict.keys]
    rw [e, hZ, ← e', sum_pair]
    simp [pw, hn]
  obtain ⟨o1, l1, ne1⟩ := sorted_of k1
  obtain ⟨o2, l2, ne2⟩ := sorted_of k2
  obtain ⟨o3, l3, ne3⟩ := sorted_of k3
  obtain ⟨so, c1, f1, p1, _⟩ := concat_of_has X.goodF Si o1 ne1 (pw v w) g1
  obtain ⟨co, c2, f2, p2, _⟩ := concat_of_has X.goodG Ci o2 ne2 (pw cv cw) g2
  obtain ⟨dd, c3, f3, p3, q3⟩ := concat_of_has X.goodH Di o3 ne3 (pw v dw) g3
  obtain ⟨ex, t, hex, hres, hcat⟩ := concatResult_has X.goodH Di o3 (by rw [l3]; decide) ne3 (pw v dw) g3 cfg.outKey hr.out
  have hfin : finish cfg s2.dataDim (Si, Ci, Di) = .ok ⟨.tensor t, [(cfg.name, so)], [(cfg.name, co)], [(cfg.name, dd)]⟩ := by
    unfold finish
    simp only [hex, bind, Except.bind, hr.concat, if_true]
    unfold Concat.concatNamed
    have c2' := c2
    rw [X.sameDim] at c2'
    simp only [hr.dim, c1, c2', bind, Except.bind]
    rw [show (s2.dataDim : Int) = (X.H.dim : Int) from rfl, c3]
    dsimp only
    rw [show s2.dataDim = X.H.dim from rfl, hres]
  have hfw := forward_eq cfg r ⟨none, some S0, some C0, some [(n, dt)]⟩ s0 s s2 _ _ _ _ x0 plans (Si, Ci, Di) _ rfl
    hpt rfl hinit hi hfin
  have kmem : ∀ {x y : TDict α} {Z : TDicts α}, SDict.keys Z = SDict.keys (pair (cfg.name, x) (n, y)) → ∀ b, b ∈ SDict.keys Z ↔ b = cfg.name ∨ b = n := by
    intro x y Z hZ b
    rw [hZ]
    unfold pair
    split <;> simp [SDict.keys, or_comm]
  refine ⟨_, _, hfw, rfl, ⟨so, co, dd, rfl, rfl, rfl, f1.congr fun k _ => sums v w k1 k, f2.congr fun k _ => sums cv cw k2 k,
    f3.congr fun k _ => sums v dw k3 k⟩, ⟨t, rfl, ?_⟩, x0, plans, Si, Ci, Di, so, co, dd, hi, kmem k1, kmem k2, kmem k3, rfl, rfl, rfl, p1, p2, p3⟩
  simp only [Dicts.lookup, SDict.get?, if_pos, Option.bind_some]
  rw [q3, hcat]

/-- C41: one link of a chain.  A block that gets the outputs of a block with another name works, and sizes add up. -/
theorem C41_step [Zero α] [OfNat T 0] (X : Fams) (cfg : Cfg α T Θ R) (s : St α T Θ) (v cv : String → Nat) (hr : Ready X cfg s v cv)
    (r : R) (n : String) (hn : n ≠ cfg.name) (w cw dw : String → Nat) (S C D : TDicts α) (hX : Carried X n w cw dw S C D) :
    ∃ s' o, forward cfg r ⟨none, some S, some C, some D⟩ s = (s', .ok o) ∧
      GoodLink X cfg n (fun k => v k + w k) (fun k => cv k + cw k) (fun k => v k + dw k) s' o := by
  obtain ⟨s', o, h1, _, h2⟩ := step_core X cfg s s v cv hr.toAble r n hn w cw dw S C S C D hX (passThrough_none X cfg s v cv hr r S C)
  exact ⟨s', o, h1, h2⟩

/-! ## Chains -/

/-- The outputs of each block are fed to the next one. -/
def chain [Zero α] : Out α → List (Cfg α T Θ R × St α T Θ × R) → Py (Out α)
  | o, [] => .ok o
  | o, b :: l =>
    match (forward b.1 b.2.2 (passOn o) b.2.1).2 with
    | .error e => .error e
    | .ok o => chain o l

/-- The name of the last block of a chain that starts after block `n`. -/
def lastName (n : String) (names : List String) : String := names.getLast?.getD n

/-- C41: a chain of any length, in which each block has another name than the one before it, works; the outputs carry exactly the
last block, and the sizes are the sums over all blocks. -/
theorem C41_chain [Zero α] [OfNat T 0] (X : Fams) (l : List (Cfg α T Θ R × St α T Θ × R)) (v cv : Nat → String → Nat)
    (hl : ∀ (i : Nat) b, l[i]? = some b → Ready X b.1 b.2.1 (v i) (cv i)) (n : String) (hn : List.IsChain (· ≠ ·) (n :: l.map fun b => b.1.name))
    (o : Out α) (w cw dw : String → Nat) (ho : Carried X n w cw dw o.state o.costate o.data) :
    ∃ o', chain o l = .ok o' ∧
      Carried X (lastName n (l.map fun b => b.1.name)) (fun k => ((List.range l.length).map fun i => v i k).sum + w k)
        (fun k => ((List.range l.length).map fun i => cv i k).sum + cw k) (fun k => ((List.range l.length).map fun i => v i k).sum + dw k)
        o'.state o'.costate o'.data := by
  induction l generalizing v cv n o w cw dw with
  | nil => exact ⟨o, rfl, by simpa [lastName] using ho⟩
  | cons b l ih =>
    rw [List.map_cons, List.isChain_cons_cons] at hn
    obtain ⟨hne, hn⟩ := hn
    obtain ⟨s', o1, h1, h2, _⟩ := C41_step X b.1 b.2.1 (v 0) (cv 0) (hl 0 b rfl) b.2.2 n hne w cw dw _ _ _ ho
    obtain ⟨o', h3, h4⟩ := ih (fun i => v (i + 1)) (fun i => cv (i + 1)) (fun i b' hb' => hl (i + 1) b' hb') b.1.name hn o1 _ _ _ h2
    refine ⟨o', ?_, ?_⟩
    · show (match (forward b.1 b.2.2 (passOn o) b.2.1).2 with | .error e => _ | .ok o => chain o l) = _
      rw [show passOn o = ⟨none, some o.state, some o.costate, some o.data⟩ from rfl, h1]
      exact h3
    · have hlast : lastName n ((b :: l).map fun b => b.1.name) = lastName b.1.name (l.map fun b => b.1.name) := by
        unfold lastName
        rw [List.map_cons, List.getLast?_cons]
        rfl
      rw [hlast]
      have hsum : ∀ (f : Nat → String → Nat) (x : String → Nat), (fun k => ((List.range (b :: l).length).map fun i => f i k).sum + x k) =
          fun k => ((List.range l.length).map fun i => f (i + 1) k).sum + (f 0 k + x k) := by
        intro f x
        funext k
        rw [List.length_cons, List.range_succ_eq_map, List.map_cons, List.map_map, List.sum_cons]
        simp only [Function.comp_def, Nat.succ_eq_add_one]
        omega
      rw [hsum, hsum, hsum]
      exact h4

/-- C41: a chain with two equal neighbouring names fails. -/
theorem C41_chain_rejects [Zero α] [OfNat T 0] (X : Fams) (b : Cfg α T Θ R × St α T Θ × R) (l : List (Cfg α T Θ R × St α T Θ × R)) (v cv : String → Nat)
    (hb : Ready X b.1 b.2.1 v cv) (o : Out α) (w cw dw : String → Nat) (ho : Carried X b.1.name w cw dw o.state o.costate o.data) :
    chain o (b :: l) = .error .valueError := by
  obtain ⟨s, c, d, h1, h2, h3, _, _, _⟩ := ho
  obtain ⟨e, he, hv⟩ := C41_reject b.1 b.2.2 (passOn o) b.2.1 b.2.1 o.state o.costate (passThrough_none X b.1 b.2.1 v cv hb b.2.2 _ _)
    (.inl (by rw [h1]; simp))
  have : e = .valueError := hv ⟨(o.data, true), rfl⟩ rfl
  unfold chain
  rw [he, this]

/-- C41: the first block of a chain gets a data tensor; its outputs carry its own name and the sizes of its state and of the data. -/
theorem C41_first [Zero α] [OfNat T 0] (X : Fams) (cfg : Cfg α T Θ R) (s : St α T Θ) (v cv : String → Nat) (hr : Able X cfg s v cv)
    (r : R) (x : Tensor α) (d : TDict α) (hx : cfg.initialData x = .ok d) (dw : String → Nat) (hd : Has X.H dw d) :
    ∃ o, forward cfg r ⟨some x, none, none, none⟩ s = ({ s with notYet := false }, .ok o) ∧
      Carried X cfg.name v cv dw o.state o.costate o.data ∧
      ∃ t, o.result = .tensor t ∧ Dicts.lookup o.data cfg.name cfg.outKey = some t := by
  obtain ⟨own, ho, hown⟩ := hr.own
  obtain ⟨cown, hco, hcown⟩ := hr.cown
  have one : ∀ {F : Fam} {a : String → Nat} {y : TDict α}, Has F a y → ∀ b ∈ [(cfg.name, y)], Has F ((fun _ => a) b.1) b.2 := by
    intro F a y hy b hb
    rw [List.mem_singleton] at hb
    subst hb
    exact hy
  obtain ⟨x0, plans, ha, hint⟩ := integrate_has X cfg s hr.time [(cfg.name, own)] [(cfg.name, cown)] [(cfg.name, d)] (fun _ => v) (fun _ => cv)
    (fun _ => dw) (by simp [SDict.Sorted]) (by simp [SDict.Sorted]) (by simp [SDict.Sorted]) (by simp) (by simp) (by simp) (one hown) (one hcown) (one hd)
  obtain ⟨Si, Ci, Di, hi, ⟨k1, g1⟩, ⟨k2, g2⟩, ⟨k3, g3⟩⟩ := hint s rfl rfl
  have single : ∀ {Z : TDicts α} {y : TDict α}, SDict.keys Z = SDict.keys [(cfg.name, y)] → ∃ z, Z = [(cfg.name, z)] := by
    intro Z y hZ
    rcases Z with _ | ⟨a, _ | ⟨b, Z⟩⟩
    · cases hZ
    · have : [a.1] = [cfg.name] := hZ
      refine ⟨a.2, ?_⟩
      rw [← List.singleton_inj.1 this]
    · have := congrArg List.length hZ
      simp [SDict.keys] at this
  obtain ⟨so, rfl⟩ := single k1
  obtain ⟨co, rfl⟩ := single k2
  obtain ⟨dd, rfl⟩ := single k3
  have f1 := g1 _ (List.mem_singleton.2 rfl)
  have f2 := g2 _ (List.mem_singleton.2 rfl)
  have f3 := g3 _ (List.mem_singleton.2 rfl)
  obtain ⟨t, ht, _⟩ := get?_of_has f3 cfg.outKey hr.out
  have hinit : initial cfg [(cfg.name, d)] none none false s = (s, .ok (x0, plans)) := by
    have hm1 : Dicts.merge s.state none cfg.name = .ok [(cfg.name, own)] := by rw [ho]; rfl
    have hm2 : Dicts.merge s.costate none cfg.name = .ok [(cfg.name, cown)] := by rw [hco]; rfl
    unfold initial
    rw [hm1, hm2]
    dsimp only
    have : padData cfg [(cfg.name, d)] false s = (s, .ok [(cfg.name, d)]) := by
      unfold padData
      cases s.state <;> rfl
    rw [this]
    exact congrArg (Prod.mk s) ha
  have hfin : finish cfg s.dataDim ([(cfg.name, so)], [(cfg.name, co)], [(cfg.name, dd)]) =
      .ok ⟨.tensor t, [(cfg.name, so)], [(cfg.name, co)], [(cfg.name, dd)]⟩ := by
    have hex := Dicts.C50_single_block cfg.name cfg.outKey dd
    rw [ht] at hex
    unfold finish
    dsimp only
    rw [hex]
    simp only [bind, Except.bind, hr.concat, if_true]
    unfold Concat.concatNamed
    rw [concat_single _ f1.sorted, concat_single _ f2.sorted, concat_single _ f3.sorted]
    rfl
  have hch : chooseData cfg (some x) none = .ok ([(cfg.name, d)], false) := by
    unfold chooseData
    dsimp only
    rw [hx]
    rfl
  exact ⟨_, forward_eq cfg r ⟨some x, none, none, none⟩ s s s none none _ false x0 plans _ _ rfl rfl hch hinit hi hfin,
    ⟨so, co, dd, rfl, rfl, rfl, f1, f2, f3⟩, t, rfl, by simp [Dicts.lookup, SDict.get?, ht]⟩

/-! ## Examples -/

/-- Vectors with one channel. -/
def demoFams : Fams where
  F := ⟨2, ["q1"], fun _ => [1, 1, 1]⟩
  G := ⟨2, ["p_q1"], fun _ => [1, 1, 1]⟩
  H := ⟨2, ["q1"], fun _ => [1, 1, 1]⟩
  db := [1, 1, 1]
  goodF := ⟨by simp, by simp, by simp⟩
  goodG := ⟨by simp, by simp, by simp⟩
  goodH := ⟨by simp, by simp, by simp⟩
  sameDim := rfl
  keys := rfl
  base := rfl
  rank := by simp

/-- A block that does not enlarge, as all fully connected models. -/
def demo1 (name : String) : Cfg ℤ ℤ Unit Unit := { demo name true with enlargementDims := none }

theorem demo_ready (name : String) (w : Nat) : Ready demoFams (demo1 name) (demoBlock w) (fun _ => w) (fun _ => w) where
  concat := rfl
  dim := rfl
  noEnlarge := .inr ⟨rfl, rfl, rfl⟩
  out := by simp [demoFams, demo1, demo]
  own := ⟨_, rfl, by simp [SDict.Sorted, SDict.keys], rfl, by simp [demoFams, Tensor.WF, vol]⟩
  cown := ⟨_, rfl, by simp [SDict.Sorted, SDict.keys], rfl, by simp [demoFams, Tensor.WF, vol]⟩
  time := ⟨1, ⟨rfl, rfl⟩, fun _ _ _ x0 => ⟨_, _, rfl, rfl, by simp⟩⟩

/-- The chain a, b, a of widths 1, 2, 3 works: names only have to differ from the block before. -/
example : ∃ o o', (forward (demo1 "a") () demoX (demoBlock 1)).2 = .ok o ∧
    chain o [(demo1 "b", demoBlock 2, ()), (demo1 "a", demoBlock 3, ())] = .ok o' ∧
    o'.state.map (fun b => (b.1, b.2.map fun p => p.2.shape)) = [("a", [[1, 1, 6]])] ∧
    o'.data.map (fun b => (b.1, b.2.map fun p => p.2.shape)) = [("a", [[1, 1, 6]])] := ⟨_, _, rfl, rfl, rfl, rfl⟩

example : List.IsChain (· ≠ ·) ("a" :: ([(demo1 "b", demoBlock 2, ()), (demo1 "a", demoBlock 3, ())] : List (_ × _ × Unit)).map fun b => b.1.name) := by
  simp [demo1, demo]

/-! ## Without concatenation -/

theorem keys_decDicts (f : List Nat → Nat → Tensor α) (p : Assembly.Plans) (i : Nat) : SDict.keys (Assembly.decDicts f p i) = SDict.keys p := by
  induction p generalizing i with
  | nil => rfl
  | cons b p ih => exact congrArg (b.1 :: ·) (ih _)

/-- The integrated blocks have the names of the assembled ones. -/
theorem integrate_keys (cfg : Cfg α T Θ R) (x0 : List α) (plans : Assembly.AllPlans) (hp : Assembly.GoodAllPlans plans) (s : St α T Θ)
    (hl : ∀ th d p x ts rows, cfg.solve th d p x ts = .ok (some rows) → ∀ row ∈ rows, row.length = x.length)
    (y : TDicts α × TDicts α × TDicts α) (h : integrate cfg x0 plans s = .ok y) :
    SDict.keys y.1 = SDict.keys plans.state ∧ SDict.keys y.2.1 = SDict.keys plans.costate ∧ SDict.keys y.2.2 = SDict.keys plans.data := by
  unfold integrate at h
  cases htv : s.timeVector with
  | some v =>
    rw [htv] at h
    dsimp only at h
    revert h
    cases hs : cfg.solve s.theta s.dataDim plans x0 v with
    | error e => intro h; cases h
    | ok rows =>
      simp only [bind, Except.bind]
      cases rows with
      | none => intro h; cases h
      | some rows =>
        dsimp only
        rw [Assembly.disassembleTensor_stack _ rows (hl _ _ _ _ _ _ hs) plans hp]
        intro h
        split at h
        · cases h
          exact ⟨keys_decDicts _ _ _, keys_decDicts _ _ _, keys_decDicts _ _ _⟩
        · cases h
  | none =>
    rw [htv] at h
    dsimp only at h
    cases ht : s.time with
    | none => rw [ht] at h; cases h
    | some t =>
      rw [ht] at h
      dsimp only at h
      revert h
      cases hs : cfg.solve s.theta s.dataDim plans x0 t with
      | error e => intro h; cases h
      | ok rows =>
        simp only [bind, Except.bind]
        cases rows with
        | none => intro h; cases h
        | some rows =>
          dsimp only
          cases rows.getLast? with
          | none => intro h; cases h
          | some row =>
            dsimp only
            rw [Assembly.disassembleTensor_vec _ plans hp]
            intro h
            split at h
            · cases h
              exact ⟨keys_decDicts _ _ _, keys_decDicts _ _ _, keys_decDicts _ _ _⟩
            · cases h

theorem zeroDataDict_good [Zero α] (st : TDict α) (D : TDicts α) (sd dd : Nat) (z : TDict α) (h : Dicts.zeroDataDict st D sd dd = .ok z) :
    Assembly.GoodDict z := by
  have key : ∀ (l : TDict α) (acc r : TDict α × List Nat), Assembly.GoodDict acc.1 →
      l.foldlM (m := Except Err) (Dicts.zeroDataStep sd dd) acc = .ok r → Assembly.GoodDict r.1 := by
    intro l
    induction l with
    | nil => intro acc r ha hr; cases hr; exact ha
    | cons p l ih =>
      intro acc r ha hr
      rw [List.foldlM_cons] at hr
      cases hstep : Dicts.zeroDataStep sd dd acc p with
      | error e => rw [hstep] at hr; cases hr
      | ok acc' =>
        rw [hstep] at hr
        refine ih acc' r ?_ hr
        unfold Dicts.zeroDataStep at hstep
        split at hstep
        · cases hstep
        unfold Dicts.listSet at hstep
        split at hstep
        · rename_i n _ hlt
          cases hstep
          refine ⟨ha.1.set _ _, ?_⟩
          intro q hq
          have hg := (SDict.get?_eq_some_iff (ha.1.set _ _)).2 (show (q.1, q.2) ∈ _ from hq)
          rw [SDict.get?_set _ ha.1] at hg
          split at hg
          · rw [← Option.some.inj hg]
            refine ⟨by simp [Dicts.zeros, Tensor.WF], ?_⟩
            intro h0
            have h1 := congrArg List.length h0
            simp only [Dicts.zeros, List.length_set, List.length_nil] at h1
            omega
          · exact ha.2 _ (SDict.mem_of_get?_eq_some hg)
        · cases hstep
  unfold Dicts.zeroDataDict at h
  simp only [bind, Except.bind] at h
  split at h
  · cases h
  split at h
  · cases h
  rename_i r hr
  cases h
  exact key _ _ _ ⟨by simp, fun p hp => by cases hp⟩ hr

/-- C41: without concatenation the states returned carry the block itself (if it has states) and all blocks passed in. -/
theorem C41_plain_keeps_all_names [Zero α] (cfg : Cfg α T Θ R) (hc : cfg.concatenate = false) (he : cfg.enlarge = false)
    (hl : ∀ th d p x ts rows, cfg.solve th d p x ts = .ok (some rows) → ∀ row ∈ rows, row.length = x.length)
    (r : R) (i : Inp α) (s : St α T Θ) (S C D : TDicts α) (hS : i.state = some S) (hC : i.costate = some C) (hD : i.data = some D)
    (gS : Assembly.GoodDicts S) (gC : Assembly.GoodDicts C) (gD : Assembly.GoodDicts D)
    (nS : ∀ b ∈ S, b.2 ≠ []) (own : TDict α) (hs : s.state = some own) (gown : Assembly.GoodDict own) (nown : own ≠ [])
    (cown : TDict α) (hcs : s.costate = some cown) (gcown : Assembly.GoodDict cown)
    (o : Out α) (ho : (forward cfg r i s).2 = .ok o) : ∀ b, b ∈ SDict.keys o.state ↔ b = cfg.name ∨ b ∈ SDict.keys S := by
  have good_merge : ∀ (x : TDict α) (Z M : TDicts α), Assembly.GoodDict x → Assembly.GoodDicts Z → Dicts.merge (some x) (some Z) cfg.name = .ok M →
      Assembly.GoodDicts M ∧ SDict.get? M cfg.name = some x ∧ ∀ k, k ≠ cfg.name → SDict.get? M k = SDict.get? Z k := by
    intro x Z M gx gZ hm
    obtain ⟨h1, h2, h3⟩ := Dicts.C05_merge_lookup (some x) (some Z) cfg.name (by
      intro d hd
      cases hd
      exact ⟨gZ.1, fun b hb => (gZ.2 b hb).1⟩) M hm
    refine ⟨⟨h1, ?_⟩, h2, fun k hk => h3 k hk⟩
    intro b hb
    have hg := (SDict.get?_eq_some_iff h1).2 (show (b.1, b.2) ∈ M from hb)
    by_cases hbn : b.1 = cfg.name
    · rw [hbn, h2] at hg
      cases hg
      exact gx
    · rw [h3 _ hbn] at hg
      exact gZ.2 _ (SDict.mem_of_get?_eq_some hg)
  unfold forward at ho
  split at ho
  · cases ho
  have hpt : passThrough cfg r i.state i.costate s = (s, .ok (some S, some C)) := by
    unfold passThrough
    rw [hS, hC]
    dsimp only
    rw [if_neg (by rw [he]; decide)]
  rw [hpt] at ho
  dsimp only at ho
  split at ho
  · cases ho
  rename_i data pad hch
  have hdp : data = D ∧ pad = true := by
    unfold chooseData at hch
    rw [hD] at hch
    cases hx : i.x with
    | some x => rw [hx] at hch; cases hch
    | none => rw [hx] at hch; cases hch; exact ⟨rfl, rfl⟩
  obtain ⟨rfl, rfl⟩ := hdp
  split at ho
  · cases ho
  rename_i s2 x0 plans hi
  split at ho
  · cases ho
  rename_i o' hfin
  cases ho
  -- the assembled blocks
  unfold initial at hi
  split at hi
  · cases hi
  · cases hi
  rename_i M Mc hm hmc
  rw [hs] at hm
  rw [hcs] at hmc
  split at hi
  · cases hi
  rename_i s3 Md hpad
  simp only [Prod.mk.injEq] at hi
  obtain ⟨rfl, hasm⟩ := hi
  obtain ⟨gM, hMn, hMo⟩ := good_merge own S M gown gS hm
  obtain ⟨gMc, _, _⟩ := good_merge cown C Mc gcown gC hmc
  have gMd : Assembly.GoodDicts Md := by
    unfold padData at hpad
    rw [hs] at hpad
    dsimp only at hpad
    split at hpad
    · cases hpad
    rename_i d hdim
    simp only [Prod.mk.injEq] at hpad
    obtain ⟨_, hz2⟩ := hpad
    simp only [bind, Except.bind] at hz2
    split at hz2
    · cases hz2
    rename_i z hz1
    cases d with
    | none =>
      exfalso
      unfold Dicts.dataConcatDim at hdim
      simp only [bind, Except.bind] at hdim
      split at hdim
      · cases hdim
      split at hdim
      · cases hdim
      split at hdim
      · cases hdim
      · cases hdim
    | some d => exact (good_merge z data Md (zeroDataDict_good _ _ _ _ z hz1) gD hz2).1
  have hlay := Assembly.C02_layout M Mc Md gM gMc gMd x0 plans hasm
  have hgp : Assembly.GoodAllPlans plans := by
    obtain ⟨_, _, e1, e2, e3⟩ := hlay
    refine ⟨?_, ?_, ?_⟩
    · rw [e1]; exact Assembly.goodPlans_shapesOf M gM
    · rw [e2]; exact Assembly.goodPlans_shapesOf Mc gMc
    · rw [e3]; exact Assembly.goodPlans_shapesOf Md gMd
  revert hfin
  cases hint : integrate cfg x0 plans s3 with
  | error e => intro h; cases h
  | ok y =>
    intro h
    have hk := (integrate_keys cfg x0 plans hgp s3 hl y hint).1
    simp only [bind, Except.bind] at h
    unfold finish at h
    revert h
    cases Dicts.extractKey y.2.2 cfg.outKey with
    | error e => intro h; cases h
    | ok ex =>
      simp only [bind, Except.bind, hc, Bool.false_eq_true, if_false]
      intro h
      cases h
      intro b
      dsimp only
      rw [hk, hlay.2.2.1]
      have hdrop : Assembly.dropEmptyBlocks M = M := by
        unfold Assembly.dropEmptyBlocks
        rw [List.filter_eq_self]
        intro b hb
        have hg := (SDict.get?_eq_some_iff gM.1).2 (show (b.1, b.2) ∈ M from hb)
        have : b.2 ≠ [] := by
          by_cases hbn : b.1 = cfg.name
          · rw [hbn, hMn] at hg
            cases hg
            exact nown
          · rw [hMo _ hbn] at hg
            exact nS _ (SDict.mem_of_get?_eq_some hg)
        simpa using this
      rw [hdrop]
      have hks : SDict.keys (Assembly.shapesOf M) = SDict.keys M := by
        unfold Assembly.shapesOf SDict.keys
        rw [List.map_map]
        rfl
      rw [hks]
      have memk : ∀ {V : Type} (d : SDict String V) (k : String), k ∈ SDict.keys d ↔ SDict.get? d k ≠ none := by
        intro V d k
        rw [ne_eq, SDict.get?_eq_none_iff, not_not]
      rw [memk]
      by_cases hbn : b = cfg.name
      · subst hbn
        simp [hMn]
      · rw [hMo b hbn, ← memk]
        simp [hbn]

/-- Without concatenation a block whose name occurred anywhere earlier in the chain is rejected: a, b, a fails. -/
example : ∃ o o', (forward { demo "a" false with enlarge := false } () demoX (demoBlock 1)).2 = .ok o ∧
    (forward { demo "b" false with enlarge := false } () (passOn o) (demoBlock 1)).2 = .ok o' ∧
    SDict.keys o'.state = ["a", "b"] ∧
    chain o [({ demo "b" false with enlarge := false }, demoBlock 1, ()), ({ demo "a" false with enlarge := false }, demoBlock 1, ())] =
      .error .valueError := ⟨_, _, rfl, rfl, rfl, rfl⟩

end Verif.Block
