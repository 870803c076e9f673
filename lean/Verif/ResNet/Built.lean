import Verif.ResNet.Works

/-!
# C42: networks as the constructor builds them
-/

namespace Verif.ResNet
open Verif Block Tensor

variable {α T Θ R β : Type}

/-- What the shooting model class has to provide: for the channels and particle sizes of each layer, blocks whose particles and data have the sizes
`X i`, where what leaves a layer is strided by `a` and can be enlarged to the sizes of the next one. -/
structure ModelFits [OfNat T 0] (model : BlockSpec → Py (Cfg α T Θ R × St α T Θ)) (a : Nat) (X : Nat → Fams) (channels : List Nat)
    (sizes : List (List Nat)) : Prop where
  images : ∀ i, Images (X i)
  data : ∀ i, (X (i + 1)).H = (strideFams a (X i)).H
  subF : ∀ i, Sub (strideFams a (X i)).F (X (i + 1)).F
  subG : ∀ i, Sub (strideFams a (X i)).G (X (i + 1)).G
  name : ∀ q b, model q = .ok b → b.1.name = q.name
  /-- the very first block has all channels -/
  first : ∀ c s b, channels[0]? = some c → sizes[0]? = some s → model ⟨blockName 0 0, c, s, c, false⟩ = .ok b →
    Able (X 0) b.1 b.2 (fun _ => c) (fun _ => c) ∧
    ∀ x : Tensor α, x.WF → x.shape = (X 0).db.set 1 c → ∃ d, b.1.initialData x = .ok d ∧ Has (X 0).H (fun _ => c) d
  /-- the first block of a later layer has the additional channels -/
  grow : ∀ i c0 c s b, channels[i]? = some c0 → channels[i + 1]? = some c → sizes[i + 1]? = some s → c0 ≤ c →
    model ⟨blockName (i + 1) 0, c, s, (c : Int) - (c0 : Int), false⟩ = .ok b →
    Able (X (i + 1)) b.1 b.2 (fun _ => c - c0) (fun _ => c - c0) ∧ Enlarges b.1 (X (i + 1)).F (X (i + 1)).G ∧
    b.2.notYet = true ∧ b.2.enlState = none ∧ b.2.enlCostate = none
  /-- the other blocks have no particles -/
  relay : ∀ i k c s d b, model ⟨blockName i (k + 1), c, s, d, true⟩ = .ok b → Relay (X i) b.1 b.2

theorem mapM_ok_cons {β γ : Type} (f : β → Py γ) (x : β) (xs : List β) (l : List γ) (h : (x :: xs).mapM f = .ok l) :
    ∃ y ys, f x = .ok y ∧ xs.mapM f = .ok ys ∧ l = y :: ys := by
  rw [List.mapM_cons] at h
  cases hx : f x with
  | error e => rw [hx] at h; cases h
  | ok y =>
    rw [hx] at h
    cases hxs : xs.mapM f with
    | error e => rw [hxs] at h; cases h
    | ok ys =>
      rw [hxs] at h
      refine ⟨y, ys, rfl, rfl, ?_⟩
      cases h
      rfl

theorem mapM_ok_mem {β γ : Type} (f : β → Py γ) (xs : List β) (l : List γ) (h : xs.mapM f = .ok l) : ∀ y ∈ l, ∃ x ∈ xs, f x = .ok y := by
  induction xs generalizing l with
  | nil => cases h; simp
  | cons x xs ih =>
    obtain ⟨y, ys, h1, h2, rfl⟩ := mapM_ok_cons f x xs l h
    intro z hz
    rcases List.mem_cons.1 hz with rfl | hz
    · exact ⟨x, by simp, h1⟩
    · obtain ⟨x', g1, g2⟩ := ih ys h2 z hz
      exact ⟨x', List.mem_cons_of_mem _ g1, g2⟩

theorem mapM_ok_map {β γ δ : Type} (f : β → Py γ) (g : β → δ) (g' : γ → δ) (hg : ∀ x y, f x = .ok y → g' y = g x) (xs : List β) (l : List γ)
    (h : xs.mapM f = .ok l) : l.map g' = xs.map g := by
  induction xs generalizing l with
  | nil => cases h; rfl
  | cons x xs ih =>
    obtain ⟨y, ys, h1, h2, rfl⟩ := mapM_ok_cons f x xs l h
    rw [List.map_cons, List.map_cons, hg x y h1, ih ys h2]

theorem additionalFrom_getD (p : Int) (cs : List Nat) (i c0 c : Nat) (h0 : cs[i]? = some c0) (h1 : cs[i + 1]? = some c) :
    (additionalFrom p cs).getD (i + 1) 0 = (c : Int) - (c0 : Int) := by
  induction cs generalizing p i with
  | nil => cases h0
  | cons d cs ih =>
    cases i with
    | zero =>
      cases cs with
      | nil => cases h1
      | cons e cs =>
        cases h0; cases h1
        rfl
    | succ i =>
      have := ih (d : Int) i h0 h1
      simpa [additionalFrom] using this

theorem additional_getD (cs : List Nat) (i c0 c : Nat) (h0 : cs[i]? = some c0) (h1 : cs[i + 1]? = some c) :
    (additional cs).getD (i + 1) 0 = (c : Int) - (c0 : Int) := by
  cases cs with
  | nil => cases h0
  | cons d cs => exact additionalFrom_getD 0 (d :: cs) i c0 c h0 h1

/-- The striding blocks of the layers with channels `cs`. -/
def strideList (a : Nat) : List Nat → List (Option Striding.Block)
  | [] => []
  | [_] => [none]
  | _ :: c :: cs => some ⟨[(a : Int), (a : Int)], [2, 3]⟩ :: strideList a (c :: cs)

theorem strideList_eq (a c : Nat) (cs : List Nat) :
    strideList a (c :: cs) = List.replicate cs.length (some ⟨[(a : Int), (a : Int)], [2, 3]⟩) ++ [none] := by
  induction cs generalizing c with
  | nil => rfl
  | cons d cs ih => rw [strideList, ih, List.length_cons, List.replicate_succ, List.cons_append]

theorem strideList_cons (a c : Nat) (cs : List Nat) : ∃ p, strideList a (c :: cs) = p :: strideList a cs ∧
    ∀ X : Fams, 0 < a → (cs = [] ∧ StridedBy X X p) ∨ (cs ≠ [] ∧ StridedBy X (strideFams a X) p) := by
  cases cs with
  | nil => exact ⟨none, rfl, fun X _ => .inl ⟨rfl, rfl⟩⟩
  | cons d cs => exact ⟨_, rfl, fun X ha => .inr ⟨by simp, a, ha, rfl, rfl⟩⟩

/-- The blocks of a layer with at least one block. -/
theorem layer_blocks [OfNat T 0] {model : BlockSpec → Py (Cfg α T Θ R × St α T Θ)} {a : Nat} {X : Nat → Fams} {channels : List Nat} {sizes : List (List Nat)}
    (hm : ModelFits model a X channels sizes) (i c m : Nat) (s : List Nat) (d : Int) (l : List (Cfg α T Θ R × St α T Θ))
    (h : (createLayer i c (m + 1) s d).mapM model = .ok l) :
    ∃ b bs, l = b :: bs ∧ model ⟨blockName i 0, c, s, d, false⟩ = .ok b ∧ (∀ b' ∈ bs, Relay (X i) b'.1 b'.2) ∧
      b.1.name = blockName i 0 ∧ (bs.map fun b' => b'.1.name) = (List.range m).map (fun k => blockName i (k + 1)) := by
  unfold createLayer at h
  rw [List.range_succ_eq_map, List.map_cons, List.map_map] at h
  obtain ⟨b, bs, h1, h2, rfl⟩ := mapM_ok_cons _ _ _ _ h
  refine ⟨b, bs, rfl, h1, ?_, hm.name _ _ h1, ?_⟩
  · intro b' hb'
    obtain ⟨q, hq, hq2⟩ := mapM_ok_mem _ _ _ h2 b' hb'
    obtain ⟨k, _, rfl⟩ := List.mem_map.1 hq
    exact hm.relay i k c s d b' hq2
  · rw [mapM_ok_map model BlockSpec.name (fun b' => b'.1.name) (fun q b' hb' => hm.name q b' hb') _ _ h2, List.map_map]
    rfl

theorem names_chain (i m : Nat) : List.IsChain (· ≠ ·) (blockName i 0 :: (List.range m).map (fun k => blockName i (k + 1))) := by
  have : blockName i 0 :: (List.range m).map (fun k => blockName i (k + 1)) = (List.range (m + 1)).map (blockName i) := by
    rw [List.range_succ_eq_map, List.map_cons, List.map_map]
    rfl
  rw [this]
  apply List.Pairwise.isChain
  rw [List.pairwise_map]
  exact List.nodup_range.imp (fun hne he => hne (blockName_injective he).2)

theorem lastName_eq (i m : Nat) : ∃ k, lastName (blockName i 0) ((List.range m).map (fun k => blockName i (k + 1))) = blockName i k := by
  cases m with
  | zero => exact ⟨0, rfl⟩
  | succ m =>
    refine ⟨m + 1, ?_⟩
    unfold lastName
    rw [List.range_succ, List.map_append]
    simp

theorem rest_built [OfNat T 0] {model : BlockSpec → Py (Cfg α T Θ R × St α T Θ)} {a : Nat} (ha : 0 < a) {X : Nat → Fams} {channels blocks : List Nat}
    {sizes : List (List Nat)} (hm : ModelFits model a X channels sizes) (hs : channels.length ≤ sizes.length) (hb : channels.length ≤ blocks.length)
    (hpos : ∀ n ∈ blocks, 0 < n) (hmono : channels.IsChain (· ≤ ·)) (cs : List Nat) (i c0 k : Nat) (hcs : channels.drop i = c0 :: cs)
    (layers : List (List (Cfg α T Θ R × St α T Θ)))
    (hl : ((cs.zipIdx (i + 1)).map fun c => createLayer c.2 c.1 (blocks.getD c.2 0) (sizes.getD c.2 []) ((additional channels).getD c.2 0)).mapM
      (fun l => l.mapM model) = .ok layers) : Rest (blockName i k) (strideFams a (X i)) c0 layers (strideList a cs) cs := by
  induction cs generalizing i c0 k layers with
  | nil => cases hl; trivial
  | cons c cs ih =>
    rw [List.zipIdx_cons, List.map_cons] at hl
    obtain ⟨l, ls, h1, h2, rfl⟩ := mapM_ok_cons _ _ _ _ hl
    dsimp only at h1
    have hdrop : ∀ j, (channels.drop i)[j]? = channels[i + j]? := fun j => List.getElem?_drop
    have hc0 : channels[i]? = some c0 := by rw [← Nat.add_zero i, ← hdrop, hcs]; rfl
    have hc : channels[i + 1]? = some c := by rw [← hdrop, hcs]; rfl
    have hlt : i + 1 < channels.length := by
      by_contra hge
      rw [List.getElem?_eq_none (by omega)] at hc
      cases hc
    have hle : c0 ≤ c := by
      have := (List.isChain_iff_getElem.1 hmono) i hlt
      rw [List.getElem?_eq_getElem (by omega)] at hc0 hc
      rw [← Option.some.inj hc0, ← Option.some.inj hc]
      exact this
    have hsz : sizes[i + 1]? = some (sizes.getD (i + 1) []) := by
      rw [List.getElem?_eq_getElem (by omega)]
      simp [List.getElem?_eq_getElem (show i + 1 < sizes.length by omega)]
    have hbl : ∃ m, blocks.getD (i + 1) 0 = m + 1 := by
      have hin : blocks.getD (i + 1) 0 ∈ blocks := by
        rw [List.getD_eq_getElem?_getD, List.getElem?_eq_getElem (by omega)]
        exact List.getElem_mem _
      have := hpos _ hin
      exact ⟨blocks.getD (i + 1) 0 - 1, by omega⟩
    obtain ⟨m, hmm⟩ := hbl
    rw [hmm, additional_getD channels i c0 c hc0 hc] at h1
    obtain ⟨b, bs, rfl, g1, g2, g3, g4⟩ := layer_blocks hm _ _ _ _ _ _ h1
    obtain ⟨q1, q2, q3, q4, q5⟩ := hm.grow i c0 c _ b hc0 hc hsz hle g1
    obtain ⟨p, hp1, hp2⟩ := strideList_cons a c cs
    rw [hp1]
    refine ⟨X (i + 1), ⟨hm.images _, hle, hm.data i, hm.subF i, hm.subG i, q2, q1, .fresh q3 q4 q5, g2, ?_⟩, ?_⟩
    · rw [List.isChain_cons_cons, g3, g4]
      refine ⟨fun he => ?_, names_chain _ _⟩
      have := (blockName_injective he).1
      omega
    · rw [g3, g4]
      obtain ⟨k', hk'⟩ := lastName_eq (i + 1) m
      rw [hk']
      rcases hp2 (X (i + 1)) ha with ⟨rfl, hst⟩ | ⟨_, hst⟩
      · cases h2
        exact ⟨_, hst, trivial⟩
      · refine ⟨_, hst, ih (i + 1) c k' ?_ ls h2⟩
        rw [← List.drop_drop, hcs]
        rfl

/-- C42: every network that the constructor builds, with numbers of channels that do not decrease and at least one block per layer, is ready: by
`C42_works` it accepts every image of the right size, in every pass, and the head gets the number of channels of the last
layer. -/
theorem C42_built [OfNat T 0] (model : BlockSpec → Py (Cfg α T Θ R × St α T Θ)) (stem : Tensor α → Py (Tensor α)) (head : Result α → Py β)
    (channels blocks : List Nat) (sizes : List (List Nat)) (a : Nat) (ha : 0 < a) (X : Nat → Fams) (hm : ModelFits model a X channels sizes)
    (hpos : ∀ n ∈ blocks, 0 < n) (hmono : channels.IsChain (· ≤ ·)) (net : Net α T Θ R β)
    (h : construct model stem head channels blocks sizes (some (a : Int)) = .ok net) :
    NetReady net (X 0).db channels ∧ net.stem = stem ∧ net.head = head := by
  unfold construct at h
  by_cases hs : channels.length ≠ sizes.length
  · rw [if_pos hs] at h; cases h
  rw [if_neg hs] at h
  by_cases hne : channels = []
  · rw [if_pos hne] at h; cases h
  rw [if_neg hne] at h
  have hs' : channels.length = sizes.length := by omega
  have hb : channels.length ≤ blocks.length := by
    by_contra hc
    rw [(C42_layers channels blocks sizes hs').1 (by omega)] at h
    cases h
  have hspecs := createLayersFrom_ok blocks sizes (additional channels) 0 channels (by omega) (by omega) (by rw [additional_length]; omega)
  unfold createLayers at h
  rw [hspecs, C42_strides] at h
  simp only [bind, Except.bind] at h
  generalize hL : List.mapM (m := Except Err) (fun l => List.mapM model l) _ = L at h
  cases L with
  | error e => cases h
  | ok layers =>
    cases h
    obtain ⟨c, cs, rfl⟩ := List.exists_cons_of_ne_nil hne
    rw [List.zipIdx_cons, List.map_cons] at hL
    obtain ⟨l, ls, h1, h2, rfl⟩ := mapM_ok_cons _ _ _ _ hL
    dsimp only at h1
    simp only [List.length_cons] at hs' hb
    have hbl : ∃ m, blocks.getD 0 0 = m + 1 := by
      have hin : blocks.getD 0 0 ∈ blocks := by
        rw [List.getD_eq_getElem?_getD, List.getElem?_eq_getElem (by omega)]
        exact List.getElem_mem _
      have := hpos _ hin
      exact ⟨blocks.getD 0 0 - 1, by omega⟩
    obtain ⟨m, hmm⟩ := hbl
    rw [hmm] at h1
    obtain ⟨b, bs, rfl, g1, g2, g3, g4⟩ := layer_blocks hm _ _ _ _ _ _ h1
    have hsz : sizes[0]? = some (sizes.getD 0 []) := by
      rw [List.getElem?_eq_getElem (by omega)]
      simp [List.getElem?_eq_getElem (show 0 < sizes.length by omega)]
    obtain ⟨q1, q2⟩ := hm.first c _ b rfl hsz g1
    obtain ⟨p, hp1, hp2⟩ := strideList_cons a c cs
    refine ⟨⟨X 0, b, bs, ls, p, strideList a cs, c, cs, rfl, ?_, rfl, rfl, ⟨hm.images 0, q1, g2, by rw [g3, g4]; exact names_chain _ _, q2⟩, ?_⟩, rfl, rfl⟩
    · rw [← hp1, strideList_eq]
      rfl
    · rw [g3, g4]
      obtain ⟨k', hk'⟩ := lastName_eq 0 m
      rw [hk']
      rcases hp2 (X 0) ha with ⟨rfl, hst⟩ | ⟨_, hst⟩
      · cases h2
        exact ⟨_, hst, trivial⟩
      · exact ⟨_, hst, rest_built ha hm (by simp only [List.length_cons]; omega) (by simp only [List.length_cons]; omega) hpos hmono cs 0 c k' rfl ls h2⟩

/-! ### An example: particles of 2x2 pixels, images of 4x4 pixels that are halved after every layer -/

/-- The sizes of the images in layer `i`. -/
def exSizes : Nat → List Nat
  | 0 => [1, 1, 4, 4]
  | i + 1 => Striding.targetShape [(2, 2), (2, 3)] (exSizes i)

theorem exSizes_length (i : Nat) : (exSizes i).length = 4 := by
  induction i with
  | zero => rfl
  | succ i ih => rw [exSizes, targetShape_length, ih]

def exFams (i : Nat) : Fams where
  F := ⟨1, ["q1"], fun _ => [1, 1, 2, 2]⟩
  G := ⟨1, ["p_q1"], fun _ => [1, 1, 2, 2]⟩
  H := ⟨1, ["q1"], fun _ => exSizes i⟩
  db := exSizes i
  goodF := ⟨by simp, by simp, by simp⟩
  goodG := ⟨by simp, by simp, by simp⟩
  goodH := ⟨by simp, by simp [exSizes_length], by simp⟩
  sameDim := rfl
  keys := rfl
  base := rfl
  rank := by simp [exSizes_length]

def exCfg (name : String) : Cfg ℤ ℤ Unit Unit := { demo name true with concatDim := 1, enlargementDims := some [2, 3] }

def exModel (q : BlockSpec) : Py (Cfg ℤ ℤ Unit Unit × St ℤ ℤ Unit) :=
  if q.onlyPassThrough then .ok (exCfg q.name, { demoBlock 1 with state := none, costate := none })
  else
    let t (x : ℤ) : Tensor ℤ := ⟨[1, q.particleDimension.toNat, 2, 2], List.replicate (q.particleDimension.toNat * 4) x⟩
    .ok (exCfg q.name, { demoBlock 1 with state := some [("q1", t 5)], costate := some [("p_q1", t 6)] })

theorem exModel_able (i : Nat) (q : BlockSpec) (h : q.onlyPassThrough = false) (c : Nat) (hc : q.particleDimension = c) (b : Cfg ℤ ℤ Unit Unit × St ℤ ℤ Unit)
    (hb : exModel q = .ok b) : b.1 = exCfg q.name ∧ Able (exFams i) b.1 b.2 (fun _ => c) (fun _ => c) ∧ b.2.notYet = true ∧ b.2.enlState = none ∧ b.2.enlCostate = none := by
  unfold exModel at hb
  rw [if_neg (by simp [h]), hc] at hb
  cases hb
  refine ⟨rfl, ⟨rfl, rfl, ?_, ?_, ?_, ?_⟩, rfl, rfl, rfl⟩
  · simp [exFams, exCfg, demo]
  · exact ⟨_, rfl, by simp [SDict.Sorted], rfl, by simp [exFams, Tensor.WF, vol]⟩
  · exact ⟨_, rfl, by simp [SDict.Sorted], rfl, by simp [exFams, Tensor.WF, vol]⟩
  · exact ⟨1, ⟨rfl, rfl⟩, fun _ _ _ x0 => ⟨_, _, rfl, rfl, by simp⟩⟩

theorem exModel_fits (channels : List Nat) (sizes : List (List Nat)) : ModelFits exModel 2 exFams channels sizes where
  images := fun i => ⟨rfl, by show 4 ≤ (exSizes i).length; rw [exSizes_length], fun _ _ => (exSizes_length i).symm, fun _ _ => (exSizes_length i).symm⟩
  data := fun _ => rfl
  subF := fun i => ⟨rfl, rfl, rfl, fun k _ c => ⟨rfl, fun j x y h1 h2 => by
    match j with
    | 0 => cases h1; cases h2; exact le_rfl
    | 1 => cases h1; cases h2; exact le_rfl
    | 2 => cases h1; cases h2; decide
    | 3 => cases h1; cases h2; decide
    | j + 4 => cases h1⟩⟩
  subG := fun i => ⟨rfl, rfl, rfl, fun k _ c => ⟨rfl, fun j x y h1 h2 => by
    match j with
    | 0 => cases h1; cases h2; exact le_rfl
    | 1 => cases h1; cases h2; exact le_rfl
    | 2 => cases h1; cases h2; decide
    | 3 => cases h1; cases h2; decide
    | j + 4 => cases h1⟩⟩
  name := by
    intro q b h
    unfold exModel at h
    split at h <;> cases h <;> rfl
  first := by
    intro c s b _ _ hb
    obtain ⟨h1, h2, _⟩ := exModel_able 0 _ rfl c rfl b hb
    refine ⟨h2, fun x hx hsh => ?_⟩
    rw [h1]
    refine ⟨[("q1", x)], rfl, by simp [SDict.Sorted], rfl, ?_⟩
    intro p hp
    rw [List.mem_singleton] at hp
    subst hp
    exact ⟨hx, hsh⟩
  grow := by
    intro i c0 c s b _ _ _ hle hb
    obtain ⟨h1, h2, h3, h4, h5⟩ := exModel_able (i + 1) _ rfl (c - c0) (by dsimp only; omega) b hb
    refine ⟨h2, ?_, h3, h4, h5⟩
    rw [h1]
    refine ⟨rfl, ⟨_, rfl⟩, rfl, by intros; simp [exCfg, demo], by intros; simp [exCfg, demo], ?_, ?_⟩
    · intro k hk
      rw [show (exFams (i + 1)).F.keys = ["q1"] from rfl, List.mem_singleton] at hk
      subst hk
      decide +kernel
    · intro k hk
      rw [show (exFams (i + 1)).G.keys = ["p_q1"] from rfl, List.mem_singleton] at hk
      subst hk
      decide +kernel
  relay := by
    intro i k c s d b hb
    unfold exModel at hb
    rw [if_pos rfl] at hb
    cases hb
    refine ⟨rfl, ?_, rfl, rfl, rfl, rfl, ?_⟩
    · simp [exFams, exCfg, demo]
    · exact ⟨1, ⟨rfl, rfl⟩, fun _ _ _ x0 => ⟨_, _, rfl, rfl, by simp⟩⟩

/-- Two layers, with one channel (two blocks) and three channels (one block): the network works in every pass. -/
example (stem : Tensor ℤ → Py (Tensor ℤ)) (x x0 : Tensor ℤ) (hx : stem x = .ok x0) (hwf : x0.WF) (hsh : x0.shape = [1, 1, 4, 4]) :
    ∃ net t, construct exModel stem (fun y => .ok y) [1, 3] [2, 1] [[2, 2], [2, 2]] (some 2) = .ok net ∧
      (forward net () x).2 = .ok (.tensor t) ∧ t.shape[1]? = some 3 := by
  have hc : ∃ net, construct exModel stem (fun y => .ok y) [1, 3] [2, 1] [[2, 2], [2, 2]] (some 2) = .ok net := ⟨_, rfl⟩
  obtain ⟨net, hnet⟩ := hc
  obtain ⟨h1, h2, h3⟩ := C42_built exModel stem (fun y => Except.ok y) [1, 3] [2, 1] [[2, 2], [2, 2]] 2 (by decide) exFams (exModel_fits _ _) (by decide) (by decide)
    net hnet
  obtain ⟨t, g1, g2, _⟩ := C42_works net _ _ h1 () x x0 1 rfl (by rw [h2]; exact hx) hwf hsh
  exact ⟨net, t, hnet, by rw [g1, h3], g2⟩

end Verif.ResNet
