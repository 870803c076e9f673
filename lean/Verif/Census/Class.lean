import Verif.Census.Network

/-!
# Convolutional shooting classes, and networks built with them
-/

namespace Verif.Census
open Verif Block ResNet Tensor

variable {α T Θ R β : Type}

/-- A convolutional shooting class with states `keys`, used with `n` particles, as `_create_one_shooting_block` calls it (res_net.py:98-123): every
block is built by the constructor of blocks, with states of shape particles x channels x height x width; costates have the shapes of the
states; data gets the states of an image; enlargement in dimensions 2 and 3 (shooting_models.py:1268-1338). -/
structure ConvClass [OfNat T 0] [OfNat T 1] (model : BlockSpec → Py (Cfg α T Θ R × St α T Θ)) (keys : List String) (n : Nat) : Prop where
  name : ∀ q b, model q = .ok b → b.1.name = q.name
  concat : ∀ q b, model q = .ok b → b.1.concatenate = true ∧ b.1.concatDim = 1
  enlarge : ∀ q b, model q = .ok b → b.1.enlarge = true ∧ b.1.enlargementDims = some [2, 3] ∧ b.1.keepZero = false
  out : ∀ q b, model q = .ok b → b.1.outKey ∈ keys
  initial : ∀ q b, model q = .ok b → ∀ x : Tensor α, x.WF → ∃ d, b.1.initialData x = .ok d ∧ SDict.keys d = keys ∧ AllShaped d x.shape
  created : ∀ q b, model q = .ok b → ∀ r dk k m, (b.1.mkState r dk k m).length = m ∧ (b.1.mkCostate r dk k m).length = m
  solve : ∀ q b, model q = .ok b → ∀ t th d p (x0 : List α), ∃ rows row, b.1.solve th d p x0 [0, t] = .ok (some rows) ∧ rows.getLast? = some row ∧
    row.length = x0.length
  built : ∀ q b, model q = .ok b → ∃ a th, Block.construct b.1 a th = .ok b.2 ∧ a.freeRnn = false ∧ a.freeTime = false ∧ a.integrandNames = [] ∧
    (∀ t : Tensor α, t.WF → (a.like t).WF ∧ (a.like t).shape = t.shape) ∧ (q.onlyPassThrough = true → a.state = none) ∧
    (q.onlyPassThrough = false → ∃ d, a.state = some d ∧ SDict.keys d = keys ∧ AllShaped d (n :: q.particleDimension.toNat :: q.particleSize))

section Class
variable [OfNat T 0] [OfNat T 1] {model : BlockSpec → Py (Cfg α T Θ R × St α T Θ)} {keys : List String} {n : Nat}

/-- A new block is as requested. -/
theorem ConvClass.ok (hc : ConvClass model keys n) (hk : Names keys) (q : BlockSpec) (b : Cfg α T Θ R × St α T Θ) (h : model q = .ok b) :
    BlockOk keys n false q b ∧ Solves b.1 b.2 := by
  obtain ⟨a, th, h1, h2, h3, h4, h5, h6, h7⟩ := hc.built q b h
  have hz := (hc.enlarge q b h).2.2
  have solves : ∀ t, Is b.2 (.upTo t) → Solves b.1 b.2 := fun t ht => ⟨t, ht, fun th d p x0 => hc.solve q b h t th d p x0⟩
  have proper : Proper (α := α) none := by
    intro l hl
    cases hl
  cases hq : q.onlyPassThrough with
  | true =>
    obtain ⟨k1, k2, k3, k4, k5, k6, k7⟩ := construct_none b.1 a th b.2 h1 h2 h3 h4 (h6 hq)
    refine ⟨⟨.inl ⟨hq, k2, k3⟩, ⟨?_, by rw [k5]; exact proper, by rw [k6]; exact proper⟩, k4, fun _ => ⟨k5, k6⟩⟩, solves _ k7⟩
    rw [k5, k6, k1, hq]
    rfl
  | false =>
    obtain ⟨d, hd, kd, sd⟩ := h7 hq
    obtain ⟨k1, k2, k3, k4, k5, k6, k7⟩ := construct_own hk b.1 hz a th b.2 h1 h2 h3 h4 d hd kd
    refine ⟨⟨.inr ⟨hq, d, _, k2, k3, kd, ?_, sd, ?_⟩, ⟨?_, by rw [k5]; exact proper, by rw [k6]; exact proper⟩, k4, fun _ => ⟨k5, k6⟩⟩, solves _ k7⟩
    · rw [← kd]
      simp [SDict.keys, Function.comp_def]
    · intro p hp
      obtain ⟨p0, hp0, rfl⟩ := List.mem_map.1 hp
      obtain ⟨s1, s2⟩ := sd p0 hp0
      obtain ⟨s3, s4⟩ := h5 _ s1
      exact ⟨s3, s4.trans s2⟩
    · rw [k5, k6, k1, hq]
      rfl

/-- The layer with number `i`; after the last one it is repeated. -/
def layerAt (l : Layer) (ls : List Layer) (i : Nat) : Layer := (l :: ls).getD i ((l :: ls).getLast (by simp))

/-- Particles of one layer, thinned by the stride, are not larger than those of the next one. -/
def Shrinks (a : Nat) (l : Layer) (ls : List Layer) : Prop :=
  List.IsChain (fun p q : Layer => p.height / a ≤ q.height ∧ p.width / a ≤ q.width) (l :: ls)

theorem shrinks_at {a : Nat} {l : Layer} {ls : List Layer} (h : Shrinks a l ls) (i : Nat) :
    (layerAt l ls i).height / a ≤ (layerAt l ls (i + 1)).height ∧ (layerAt l ls i).width / a ≤ (layerAt l ls (i + 1)).width := by
  unfold layerAt
  by_cases hi : i + 1 < (l :: ls).length
  · have := (List.isChain_iff_getElem.1 h) i hi
    rw [List.getD_eq_getElem?_getD, List.getD_eq_getElem?_getD, List.getElem?_eq_getElem hi, List.getElem?_eq_getElem (by omega)]
    exact this
  · have h2 : (l :: ls).getD (i + 1) ((l :: ls).getLast (by simp)) = (l :: ls).getLast (by simp) := by
      rw [List.getD_eq_getElem?_getD, List.getElem?_eq_none (by omega)]
      rfl
    have h1 : (l :: ls).getD i ((l :: ls).getLast (by simp)) = (l :: ls).getLast (by simp) := by
      rw [List.getD_eq_getElem?_getD]
      by_cases hi2 : i < (l :: ls).length
      · rw [List.getElem?_eq_getElem hi2, Option.getD_some, List.getLast_eq_getElem]
        congr 1
        omega
      · rw [List.getElem?_eq_none (by omega)]
        rfl
    rw [h1, h2]
    exact ⟨Nat.div_le_self _ _, Nat.div_le_self _ _⟩

/-- The sizes of the data in layer `i`. -/
def dataAt (a : Nat) (batch H W : Nat) : Nat → List Nat
  | 0 => [batch, 1, H, W]
  | i + 1 => Striding.targetShape [(a, 2), (a, 3)] (dataAt a batch H W i)

theorem dataAt_length (a batch H W i : Nat) : (dataAt a batch H W i).length = 4 := by
  induction i with
  | zero => rfl
  | succ i ih => rw [dataAt, targetShape_length, ih]

/-- The families of states, costates and data of layer `i`. -/
def famsAt {keys : List String} (hk : Names keys) (n a batch H W : Nat) (l : Layer) (ls : List Layer) (i : Nat) : Fams where
  F := ⟨1, keys, fun _ => [n, 1, (layerAt l ls i).height, (layerAt l ls i).width]⟩
  G := ⟨1, keys.map ("p_" ++ ·), fun _ => [n, 1, (layerAt l ls i).height, (layerAt l ls i).width]⟩
  H := ⟨1, keys, fun _ => dataAt a batch H W i⟩
  db := dataAt a batch H W i
  goodF := ⟨hk.ne, fun _ _ => by simp, by simp⟩
  goodG := ⟨by simpa using hk.ne, fun _ _ => by simp, by simp⟩
  goodH := ⟨hk.ne, fun _ _ => by simp [dataAt_length], by simp⟩
  sameDim := rfl
  keys := rfl
  base := rfl
  rank := fun _ _ => by simp [dataAt_length]

theorem has_of_shaped {F : Fam} {w : String → Nat} {d : TDict α} (hs : SDict.Sorted d) (hkeys : SDict.keys d = F.keys) (sh : List Nat) (h : AllShaped d sh)
    (hw : ∀ k ∈ F.keys, (F.base k).set F.dim (w k) = sh) : Has F w d :=
  ⟨hs, hkeys, fun p hp => ⟨(h p hp).1, by rw [(h p hp).2, hw p.1 (by rw [← hkeys]; exact List.mem_map_of_mem hp)]⟩⟩

theorem sorted_p {keys : List String} (hk : Names keys) : (keys.map ("p_" ++ ·)).Pairwise (· < ·) := by
  rw [List.pairwise_map]
  exact hk.sorted.imp fun h => (SDict.prefix_lt_prefix_iff _ _ _).2 h

/-- Networks of such blocks can be built and used. -/
theorem ConvClass.able (hc : ConvClass model keys n) (hk : Names keys) (a batch H W : Nat) (l : Layer) (ls : List Layer) (i : Nat) (nm : String) (ch c : Nat) (D : Int)
    (hD : D.toNat = c) (s : List Nat) (hs : s = [(layerAt l ls i).height, (layerAt l ls i).width]) (b : Cfg α T Θ R × St α T Θ)
    (h : model ⟨nm, ch, s, D, false⟩ = .ok b) :
    Able (famsAt hk n a batch H W l ls i) b.1 b.2 (fun _ => c) (fun _ => c) ∧ b.2.notYet = true ∧ b.2.enlState = none ∧ b.2.enlCostate = none := by
  obtain ⟨h1, h2⟩ := hc.ok hk _ b h
  obtain ⟨f1, f2⟩ := h1.fresh rfl
  refine ⟨⟨(hc.concat _ b h).1, (hc.concat _ b h).2, hc.out _ b h, ?_, ?_, h2⟩, h1.used, f1, f2⟩
  · rcases h1.shaped with ⟨h, _⟩ | ⟨_, d, e, hd, he, kd, ke, sd, se⟩
    · cases h
    dsimp only at sd
    rw [hD, hs] at sd
    exact ⟨d, hd, has_of_shaped (keys_sorted hk kd) kd _ sd fun _ _ => rfl⟩
  · rcases h1.shaped with ⟨h, _⟩ | ⟨_, d, e, hd, he, kd, ke, sd, se⟩
    · cases h
    dsimp only at se
    rw [hD, hs] at se
    refine ⟨e, he, has_of_shaped ?_ ke _ se fun _ _ => rfl⟩
    unfold SDict.Sorted
    rw [ke]
    exact sorted_p hk

theorem fits_stride (a n c h w h' w' : Nat) (hh : h / a ≤ h') (hw : w / a ≤ w') :
    Enlarge.Fits ((Striding.targetShape [(a, 2), (a, 3)] [n, 1, h, w]).set 1 c) ([n, 1, h', w'].set 1 c) := by
  have : (Striding.targetShape [(a, 2), (a, 3)] [n, 1, h, w]).set 1 c = [n, c, h / a, w / a] := by
    simp [Striding.targetShape, Striding.strideFor, List.mapIdx_cons]
  rw [this]
  refine ⟨rfl, fun j x y h1 h2 => ?_⟩
  match j with
  | 0 => cases h1; cases h2; exact le_rfl
  | 1 => cases h1; cases h2; exact le_rfl
  | 2 => cases h1; cases h2; exact hh
  | 3 => cases h1; cases h2; exact hw
  | j + 4 => cases h1

theorem ConvClass.fits (hc : ConvClass model keys n) (hk : Names keys) (a batch H W : Nat) (l : Layer) (ls : List Layer) (hs : Shrinks a l ls) :
    ModelFits model a (famsAt hk n a batch H W l ls) ((l :: ls).map Layer.channels) ((l :: ls).map fun x => [x.height, x.width]) where
  images := fun i => ⟨rfl, by show 4 ≤ (dataAt a batch H W i).length; rw [dataAt_length], fun _ _ => (dataAt_length a batch H W i).symm,
    fun _ _ => (dataAt_length a batch H W i).symm⟩
  data := fun _ => rfl
  subF := fun i => ⟨rfl, rfl, rfl, fun _ _ c => fits_stride a n c _ _ _ _ (shrinks_at hs i).1 (shrinks_at hs i).2⟩
  subG := fun i => ⟨rfl, rfl, rfl, fun _ _ c => fits_stride a n c _ _ _ _ (shrinks_at hs i).1 (shrinks_at hs i).2⟩
  name := hc.name
  first := by
    intro c s b h1 h2 hb
    have hs0 : s = [(layerAt l ls 0).height, (layerAt l ls 0).width] := by
      simpa [layerAt] using h2.symm
    refine ⟨(hc.able hk a batch H W l ls 0 _ _ c _ (by simp) s hs0 b hb).1, fun x hx hsh => ?_⟩
    obtain ⟨d, d1, d2, d3⟩ := hc.initial _ b hb x hx
    refine ⟨d, d1, has_of_shaped (keys_sorted hk d2) d2 _ d3 fun _ _ => ?_⟩
    rw [hsh]
    rfl
  grow := by
    intro i c0 c s b _ _ h3 hle hb
    have hs1 : s = [(layerAt l ls (i + 1)).height, (layerAt l ls (i + 1)).width] := by
      rw [List.getElem?_map] at h3
      unfold layerAt
      rw [List.getD_eq_getElem?_getD]
      cases hg : (l :: ls)[i + 1]? with
      | none => rw [hg] at h3; cases h3
      | some y => rw [hg] at h3; cases h3; rfl
    obtain ⟨g1, g2, g3, g4⟩ := hc.able hk a batch H W l ls (i + 1) _ _ (c - c0) _ (by omega) s hs1 b hb
    obtain ⟨e1, e2, e3⟩ := hc.enlarge _ b hb
    refine ⟨g1, ⟨e1, ⟨_, e2⟩, e3, fun r dk k m => (hc.created _ b hb r dk k m).1, fun r dk k m => (hc.created _ b hb r dk k m).2, fun k hk' => (hk.plain k hk').2,
      fun k hk' => (plain_p hk k hk').2⟩, g2, g3, g4⟩
  relay := by
    intro i k c s d b hb
    obtain ⟨h1, h2⟩ := hc.ok hk _ b hb
    obtain ⟨f1, f2⟩ := h1.fresh rfl
    rcases h1.shaped with ⟨_, s1, s2⟩ | ⟨h, _⟩
    · exact ⟨(hc.concat _ b hb).1, hc.out _ b hb, s1, s2, f1, f2, h2⟩
    · cases h

end Class

end Verif.Census
