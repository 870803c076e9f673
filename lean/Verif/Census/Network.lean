import Verif.Census.Names

/-!
# Names and sizes of the parameters of a network
-/

namespace Verif.Census
open Verif Block ResNet Tensor

variable {α T Θ R β : Type}

/-- All tensors of a dictionary have the given shape. -/
def AllShaped (d : TDict α) (sh : List Nat) : Prop := ∀ p ∈ d, p.2.WF ∧ p.2.shape = sh

/-- The states and costates of a block are those requested by its arguments, for `n` particles. -/
def Shaped (keys : List String) (n : Nat) (q : BlockSpec) (s : St α T Θ) : Prop :=
  (q.onlyPassThrough = true ∧ s.state = none ∧ s.costate = none) ∨
  (q.onlyPassThrough = false ∧ ∃ d c, s.state = some d ∧ s.costate = some c ∧ SDict.keys d = keys ∧ SDict.keys c = keys.map ("p_" ++ ·) ∧
    AllShaped d (n :: q.particleDimension.toNat :: q.particleSize) ∧ AllShaped c (n :: q.particleDimension.toNat :: q.particleSize))

/-- A block as requested, used or not. -/
structure BlockOk (keys : List String) (n : Nat) (passed : Bool) (q : BlockSpec) (b : Cfg α T Θ R × St α T Θ) : Prop where
  shaped : Shaped keys n q b.2
  listed : Listed (if q.onlyPassThrough then [] else ownReg keys) b.2
  used : b.2.notYet = !passed
  fresh : passed = false → b.2.enlState = none ∧ b.2.enlCostate = none

/-- The arguments of the blocks of the layers from number `i` on. -/
def specsFrom (blocks : List Nat) : Nat → Nat → List Layer → List (List BlockSpec)
  | _, _, [] => []
  | i, c0, l :: ls => createLayer i l.channels (blocks.getD i 0) [l.height, l.width] ((l.channels : Int) - (c0 : Int)) :: specsFrom blocks (i + 1) l.channels ls

def specsOf (blocks : List Nat) (l : Layer) (ls : List Layer) : List (List BlockSpec) :=
  createLayer 0 l.channels (blocks.getD 0 0) [l.height, l.width] (l.channels : Int) :: specsFrom blocks 1 l.channels ls

/-- The parameters of the blocks of a layer. -/
def layerNamed (qs : List BlockSpec) (bs : List (Cfg α T Θ R × St α T Θ)) : List (String × Option Nat) :=
  (List.zipWith (fun q b => blockNamed q.name b.2) qs bs).flatten

def flatNamed (specs : List (List BlockSpec)) (layers : List (List (Cfg α T Θ R × St α T Θ))) : List (String × Option Nat) :=
  (List.zipWith layerNamed specs layers).flatten

def some2 (l : List (String × Nat)) : List (String × Option Nat) := l.map fun p => (p.1, some p.2)

theorem some2_append (a b : List (String × Nat)) : some2 (a ++ b) = some2 a ++ some2 b := by simp [some2]

theorem blockName_zero (i : Nat) : blockName i 0 = blockOf i := rfl

/-! ## One block -/

theorem shape_base {F : Fam} {w : String → Nat} {d : TDict α} (h : Has F w d) (hd : F.dim = 1) (n c h0 w0 : Nat) (hs : AllShaped d [n, c, h0, w0]) (c' : Nat) :
    ∀ k ∈ F.keys, (F.base k).set 1 c' = [n, c', h0, w0] := by
  intro k hk
  obtain ⟨t, h1, h2, h3⟩ := get?_of_has h k hk
  have h4 := (hs _ (SDict.mem_of_get?_eq_some h1)).2
  dsimp only at h4
  rw [h3, hd] at h4
  have := congrArg (fun l => List.set l 1 c') h4
  simpa [List.set_set] using this

theorem allShaped_length {d : TDict α} {a b c e : Nat} (h : AllShaped d [a, b, c, e]) : ∀ p ∈ d, p.2.data.length = a * b * c * e := by
  intro p hp
  obtain ⟨h1, h2⟩ := h p hp
  unfold Tensor.WF at h1
  rw [h1, h2, vol4]

/-- The number of values in a margin. -/
theorem margin_size (n c h w h0 w0 : Nat) : vol [n, c, h, w] - vol [n, c, h0, w0] = n * c * (h * w - h0 * w0) := by
  rw [vol4, vol4, Nat.mul_sub, Nat.mul_assoc (n * c), Nat.mul_assoc (n * c)]

/-- The sizes of what is passed through. -/
def Sized (X : Fams) (n h w : Nat) : Prop :=
  (∀ k ∈ X.F.keys, ∀ c, (X.F.base k).set 1 c = [n, c, h, w]) ∧ ∀ k ∈ X.G.keys, ∀ c, (X.G.base k).set 1 c = [n, c, h, w]

section Blocks
variable [OfNat T 0]

/-- The first block of a later layer. -/
theorem grow_named {keys : List String} (hk : Names keys) (n : Nat) (passed : Bool) (nm : String) (X0 X : Fams) (c0 c h w h0 w0 i : Nat)
    (b : Cfg α T Θ R × St α T Θ) (bs : List (Cfg α T Θ R × St α T Θ)) (hl : LayerReady nm X0 X c0 c b bs) (hX0 : Sized X0 n h0 w0)
    (ch : Nat) (hb : BlockOk keys n passed ⟨blockName i 0, ch, [h, w], (c : Int) - (c0 : Int), false⟩ b) :
    blockNamed (blockOf i) b.2 = some2 (own keys (blockOf i) (n * (c - c0) * h * w) ++
      (if passed = false ∨ h0 = h ∧ w0 = w then [] else margin keys (blockOf i) (n * c0 * (h * w - h0 * w0)))) ∧ Sized X n h w := by
  have hdim : ((c : Int) - (c0 : Int)).toNat = c - c0 := by omega
  rcases hb.shaped with ⟨hc, _⟩ | ⟨_, d, e, hd, he, kd, ke, sd, se⟩
  · cases hc
  dsimp only at sd se
  rw [hdim] at sd se
  obtain ⟨d', hd', hasd⟩ := hl.able.own
  obtain ⟨e', he', hase⟩ := hl.able.cown
  rw [hd] at hd'
  cases hd'
  rw [he] at he'
  cases he'
  have kF : X.F.keys = keys := by rw [← hasd.keys, kd]
  have kG : X.G.keys = keys.map ("p_" ++ ·) := by rw [← hase.keys, ke]
  have bF := fun c' => shape_base hasd hl.images.dim n (c - c0) h w sd c'
  have bG := fun c' => shape_base hase hl.images.gdim n (c - c0) h w se c'
  have hsized : Sized X n h w := ⟨fun k hk c' => bF c' k hk, fun k hk c' => bG c' k hk⟩
  have hown := own_named (blockOf i) b.2 d e _ hd he kd ke (allShaped_length sd) (allShaped_length se)
  have hlisted := hb.listed.reg
  simp only [Bool.false_eq_true, if_false] at hlisted
  refine ⟨?_, hsized⟩
  rw [some2_append]
  unfold blockNamed
  -- without enlargement parameters
  have hnone : enlNames .enlState b.2.enlState ++ enlNames .enlCostate b.2.enlCostate = [] →
      b.2.reg.map (fun p => (blockOf i ++ "." ++ p.1, numel b.2 p.2)) = some2 (own keys (blockOf i) (n * (c - c0) * h * w)) := by
    intro hz
    rw [hz] at hlisted
    have : b.2.reg = ownReg keys := (Prod.ext_iff.1 hlisted).1.symm
    rw [this]
    exact hown
  cases passed with
  | false =>
    obtain ⟨f1, f2⟩ := hb.fresh rfl
    rw [if_pos (.inl rfl), hnone (by rw [f1, f2]; rfl)]
    simp [some2]
  | true =>
    have hprep := hl.prepared
    cases hprep with
    | fresh a1 =>
      have := hb.used
      rw [a1] at this
      cases this
    | used x y l m _ e1 e2 fl fm =>
      have cF : ∀ k ∈ X.F.keys, (X0.F.base k).set 1 c0 = [n, c0, h0, w0] := fun k hk => hX0.1 k (by rw [hl.subF.keys]; exact hk) c0
      have cG : ∀ k ∈ X.G.keys, (X0.G.base k).set 1 c0 = [n, c0, h0, w0] := fun k hk => hX0.2 k (by rw [hl.subG.keys]; exact hk) c0
      have pl := hb.listed.state
      have pm := hb.listed.costate
      rw [e1] at pl
      rw [e2] at pm
      by_cases hsame : h0 = h ∧ w0 = w
      · obtain ⟨rfl, rfl⟩ := hsame
        rw [if_pos (.inr ⟨rfl, rfl⟩), hnone ?_]
        · simp [some2]
        · rw [e1, e2, margin_none .enlState x l fl pl _ cF (bF c0), margin_none .enlCostate y m fm pm _ cG (bG c0)]
          rfl
      · rw [if_neg (show ¬(true = false ∨ h0 = h ∧ w0 = w) by simpa using hsame)]
        have hne : [n, c0, h0, w0] ≠ [n, c0, h, w] := by
          intro hc
          apply hsame
          simp only [List.cons.injEq] at hc
          exact ⟨hc.2.2.1, hc.2.2.2.1⟩
        have nF : X.F.keys.Nodup := by rw [kF]; exact hk.sorted.imp fun h => ne_of_lt h
        have nG : X.G.keys.Nodup := by
          rw [kG]
          exact (List.nodup_append.1 (List.nodup_append.1 hk.distinct).1).2.1
        obtain ⟨s1, s2⟩ := margin_part .enlState x l fl nF _ _ cF (bF c0) hne
        obtain ⟨t1, t2⟩ := margin_part .enlCostate y m fm nG _ _ cG (bG c0) hne
        rw [e1, e2, s1, t1, kF, kG] at hlisted
        rw [kF] at s2
        rw [kG] at t2
        rw [margin_size] at s2 t2
        have hpe : ∀ k ∈ keys ++ keys.map ("p_" ++ ·), "pt_enlarge_" ++ k ≠ "" ∧ '.' ∉ ("pt_enlarge_" ++ k).toList := by
          intro k hk'
          refine plain_prefix "pt_enlarge_" (by decide +kernel) k ?_
          rcases List.mem_append.1 hk' with h1 | h1
          · exact (hk.plain k h1).2
          · exact (plain_p hk k h1).2
        rw [registerAll_append _ _ (by
          intro p hp
          rcases List.mem_append.1 hp with h1 | h1
          · obtain ⟨k, hk', rfl⟩ := List.mem_map.1 h1
            exact hpe k (List.mem_append_left _ hk')
          · obtain ⟨k, hk', rfl⟩ := List.mem_map.1 h1
            exact hpe k (List.mem_append_right _ hk')) (by
          rw [keys_ownReg]
          simpa [Function.comp_def] using hk.distinct)] at hlisted
        have hreg := congrArg Prod.fst hlisted
        dsimp only at hreg
        rw [← hreg, List.map_append, hown]
        congr 1
        unfold margin some2
        rw [List.map_append, List.map_append, List.map_map, List.map_map, List.map_map, List.map_map, List.map_map]
        congr 1
        · apply List.map_congr_left
          intro k hk'
          dsimp only [Function.comp, numel]
          rw [e1, Option.bind_some, s2 k hk', ← String.append_assoc]
        · apply List.map_congr_left
          intro k hk'
          dsimp only [Function.comp, numel]
          rw [e2, Option.bind_some, t2 _ (List.mem_map_of_mem hk'), ← String.append_assoc, ← String.append_assoc]

/-- Blocks that only pass through have no parameters. -/
theorem relay_named {keys : List String} (n : Nat) (passed : Bool) (X : Fams) (q : BlockSpec) (hq : q.onlyPassThrough = true)
    (b : Cfg α T Θ R × St α T Θ) (hb : BlockOk keys n passed q b) (hr : Relay X b.1 b.2) : blockNamed q.name b.2 = [] := by
  have h := hb.listed.reg
  rw [hq, hr.enl, hr.cenl] at h
  have : b.2.reg = [] := (Prod.ext_iff.1 h).1.symm
  unfold blockNamed
  rw [this]
  rfl

theorem relays_named {keys : List String} (n : Nat) (passed : Bool) (X : Fams) (qs : List BlockSpec) (bs : List (Cfg α T Θ R × St α T Θ))
    (hq : ∀ q ∈ qs, q.onlyPassThrough = true) (hb : List.Forall₂ (BlockOk keys n passed) qs bs) (hr : ∀ b ∈ bs, Relay X b.1 b.2) : layerNamed qs bs = [] := by
  unfold layerNamed
  induction hb with
  | nil => rfl
  | cons h1 _ ih =>
    rw [List.zipWith_cons_cons, List.flatten_cons, relay_named n passed X _ (hq _ (by simp)) _ h1 (hr _ (by simp)),
      ih (fun q hq' => hq q (List.mem_cons_of_mem _ hq')) fun b hb' => hr b (List.mem_cons_of_mem _ hb')]
    rfl

/-- The blocks of a layer: the first one, and those that only pass through. -/
theorem createLayer_cons (i c m : Nat) (s : List Nat) (d : Int) : ∃ qs, createLayer i c (m + 1) s d = ⟨blockName i 0, c, s, d, false⟩ :: qs ∧
    ∀ q ∈ qs, q.onlyPassThrough = true := by
  unfold createLayer
  rw [List.range_succ_eq_map, List.map_cons, List.map_map]
  refine ⟨_, rfl, ?_⟩
  intro q hq
  obtain ⟨k, _, rfl⟩ := List.mem_map.1 hq
  simp

theorem sized_stride {X : Fams} {n h w : Nat} (hs : Sized X n h w) (a : Nat) : Sized (strideFams a X) n (h / a) (w / a) := by
  have key : ∀ (s : List Nat) (c : Nat), (∀ c, s.set 1 c = [n, c, h, w]) → (Striding.targetShape [(a, 2), (a, 3)] s).set 1 c = [n, c, h / a, w / a] := by
    intro s c hc
    rw [← targetShape_set, hc c]
    simp [Striding.targetShape, Striding.strideFor, List.mapIdx_cons]
  exact ⟨fun k hk c => key _ c (hs.1 k hk), fun k hk c => key _ c (hs.2 k hk)⟩

/-- The layers after the first one. -/
theorem rest_named {keys : List String} (hk : Names keys) (n a : Nat) (passed : Bool) (blocks : List Nat) (ls : List Layer) (p : Layer) (i : Nat) (nm : String)
    (X0 : Fams) (hX0 : Sized X0 n (p.height / a) (p.width / a)) (layers : List (List (Cfg α T Θ R × St α T Θ)))
    (h : Rest nm X0 p.channels layers (strideList a (ls.map Layer.channels)) (ls.map Layer.channels))
    (hb : List.Forall₂ (List.Forall₂ (BlockOk keys n passed)) (specsFrom blocks i p.channels ls) layers) :
    flatNamed (specsFrom blocks i p.channels ls) layers = some2 (if passed then later keys n a i p ls else laterNew keys n i p ls) := by
  induction ls generalizing p i nm X0 layers with
  | nil =>
    cases passed <;> rfl
  | cons l ls ih =>
    cases hb with
    | cons hb1 hb2 =>
      rename_i bs layers
      rw [List.map_cons] at h
      obtain ⟨st, hst, hst2⟩ := strideList_cons a l.channels (ls.map Layer.channels)
      rw [hst] at h
      cases bs with
      | nil => cases h
      | cons b bs =>
        obtain ⟨X, hl, X1, hs, hrest⟩ := h
        have hm : ∃ m, blocks.getD i 0 = m + 1 := by
          have := hb1.length_eq
          rw [show (createLayer i l.channels (blocks.getD i 0) [l.height, l.width] ((l.channels : Int) - (p.channels : Int))).length = blocks.getD i 0 by
            simp [createLayer]] at this
          exact ⟨bs.length, this⟩
        obtain ⟨m, hm⟩ := hm
        obtain ⟨qs, hqs, hpt⟩ := createLayer_cons i l.channels m [l.height, l.width] ((l.channels : Int) - (p.channels : Int))
        rw [hm, hqs] at hb1
        cases hb1 with
        | cons hb0 hbs =>
          obtain ⟨hn, hX⟩ := grow_named hk n passed nm X0 X p.channels l.channels l.height l.width (p.height / a) (p.width / a) i b bs hl hX0 _ hb0
          have hrel := relays_named n passed X qs bs hpt hbs hl.relays
          have hlayer : layerNamed (createLayer i l.channels (blocks.getD i 0) [l.height, l.width] ((l.channels : Int) - (p.channels : Int))) (b :: bs) =
              blockNamed (blockOf i) b.2 := by
            rw [hm, hqs]
            unfold layerNamed at hrel ⊢
            rw [List.zipWith_cons_cons, List.flatten_cons, hrel, List.append_nil]
            rfl
          have hflat : flatNamed (specsFrom blocks (i + 1) l.channels ls) layers =
              some2 (if passed then later keys n a (i + 1) l ls else laterNew keys n (i + 1) l ls) := by
            cases ls with
            | nil => cases passed <;> rfl
            | cons l' ls =>
              refine ih l (i + 1) _ X1 ?_ layers hrest hb2
              rw [List.map_cons, strideList] at hst
              have hst := (List.cons.inj hst).1
              rw [← hst] at hs
              obtain ⟨a', _, ha', hX1⟩ := hs
              have : a' = a := by
                have h1 := congrArg Striding.Block.stride ha'
                simp only [List.cons.injEq] at h1
                exact_mod_cast h1.1.symm
              subst this
              rw [hX1]
              exact sized_stride hX _
          show flatNamed (_ :: _) _ = _
          unfold flatNamed at hflat ⊢
          rw [List.zipWith_cons_cons, List.flatten_cons, hlayer, hn, hflat, ← some2_append]
          congr 1
          cases passed with
          | false => simp [laterNew]
          | true => simp [later]

end Blocks

end Verif.Census
