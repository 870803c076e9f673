import Verif.Census.History

/-!
# The invariant of the networks that are built
-/

namespace Verif.Census
open Verif Block ResNet Tensor

variable {α T Θ R β : Type}

/-- The class can make states out of every image. -/
def Initial (keys : List String) (cfg : Cfg α T Θ R) : Prop :=
  ∀ x : Tensor α, x.WF → ∃ d, cfg.initialData x = .ok d ∧ SDict.keys d = keys ∧ AllShaped d x.shape

def channelsOf (l : Layer) (ls : List Layer) : List Nat := (l :: ls).map Layer.channels

structure Good [OfNat T 0] (keys : List String) (n a : Nat) (blocks : List Nat) (l : Layer) (ls : List Layer) (st : Tensor α → Py (Tensor α)) (passed : Bool)
    (net : Net α T Θ R β) : Prop where
  ready : ∀ batch H W, NetReady net [batch, 1, H, W] (channelsOf l ls)
  fitting : List.Forall₂ (List.Forall₂ (BlockOk keys n passed)) (specsOf blocks l ls) net.layers
  strides : net.strides = strideList a (channelsOf l ls)
  modules : net.modules = registerBlocks (specsOf blocks l ls)
  names : ((specsOf blocks l ls).flatten.map BlockSpec.name).Nodup
  stem : net.stem = st
  first : ∀ b bs m, net.layers = (b :: bs) :: m → b.2.enlState = none ∧ b.2.enlCostate = none ∧ Initial keys b.1

theorem forall₂_map_right {A B C : Type} {P : A → B → Prop} {Q : A → C → Prop} (f : B → C) (hf : ∀ a b, P a b → Q a (f b)) {as : List A} {bs : List B}
    (h : List.Forall₂ P as bs) : List.Forall₂ Q as (bs.map f) := by
  induction h with
  | nil => exact .nil
  | cons h1 _ ih => exact .cons (hf _ _ h1) ih

section Keep
variable [OfNat T 0] {keys : List String} {n a : Nat} {blocks : List Nat} {l : Layer} {ls : List Layer} {st : Tensor α → Py (Tensor α)} {passed : Bool}
  {net : Net α T Θ R β}

theorem Good.train (h : Good keys n a blocks l ls st passed net) (f : String → Ref → List α → List α) (g : String → Θ → Θ) :
    Good keys n a blocks l ls st passed (trainNet f g net) := by
  refine ⟨fun batch H W => ready_train f g net _ _ (h.ready batch H W), ?_, h.strides, h.modules, h.names, h.stem, ?_⟩
  · exact forall₂_map_right (Q := List.Forall₂ (BlockOk keys n passed)) (fun l => l.map (trainBlock f g))
      (fun q b hb => forall₂_map_right (Q := BlockOk keys n passed) (trainBlock f g) (fun q b hb => block_train hb f g) hb) h.fitting
  · intro b bs m hl
    obtain ⟨_, b0, bs0, m0, _, _, _, _, h1, _⟩ := h.ready 0 0 0
    obtain ⟨f1, f2, f3⟩ := h.first b0 bs0 m0 h1
    have hl' : net.layers.map (fun l => l.map (trainBlock f g)) = (b :: bs) :: m := hl
    rw [h1, List.map_cons, List.map_cons] at hl'
    have hb : trainBlock f g b0 = b := (List.cons.inj (List.cons.inj hl').1).1
    subst hb
    refine ⟨(?_ : b0.2.enlState.map _ = _), (?_ : b0.2.enlCostate.map _ = _), f3⟩
    · rw [f1]; rfl
    · rw [f2]; rfl

variable [Zero α]

/-- The layers can always be run. -/
theorem layers_run (net : Net α T Θ R β) (db cs : List Nat) (h : NetReady net db cs) (r : R) (x x0 : Tensor α) (c : Nat) (hc : cs[0]? = some c)
    (hx : net.stem x = .ok x0) (hwf : x0.WF) (hsh : x0.shape = db.set 1 c) :
    ∃ l' L, runLayers r x0 net.layers net.strides ⟨.tensor x0, none⟩ = (l', .ok L) ∧ (forward net r x).1.layers = l' ∧
      (forward net r x).1.strides = net.strides ∧ (forward net r x).1.modules = net.modules ∧ (forward net r x).1.stem = net.stem := by
  let net1 : Net α T Θ R Unit := ⟨net.stem, net.layers, net.strides, fun _ => .ok (), net.notYet, net.modules⟩
  obtain ⟨t, h1, _, _⟩ := C42_works net1 db cs h r x x0 c hc hx hwf hsh
  unfold ResNet.forward at h1
  rw [show net1.stem x = .ok x0 from hx] at h1
  dsimp only at h1
  rw [show net1.layers = net.layers from rfl, show net1.strides = net.strides from rfl] at h1
  cases hr : runLayers r x0 net.layers net.strides ⟨.tensor x0, none⟩ with
  | mk l' e =>
    rw [hr] at h1
    cases e with
    | error e => cases h1
    | ok L =>
      refine ⟨l', L, rfl, ?_⟩
      unfold ResNet.forward
      rw [hx]
      dsimp only
      rw [hr]
      dsimp only
      cases net.head L.ret <;> exact ⟨rfl, rfl, rfl, rfl⟩

/-- The stem makes an image with `c` channels out of the input. -/
def Accepts (st : Tensor α → Py (Tensor α)) (c : Nat) (x : Tensor α) : Prop :=
  ∃ x0 batch H W, st x = .ok x0 ∧ x0.WF ∧ x0.shape = [batch, c, H, W]

theorem Good.pass (hk : Names keys) (h : Good keys n a blocks l ls st passed net) (r : R) (x : Tensor α) (hx : Accepts st l.channels x) :
    Good keys n a blocks l ls st true (forward net r x).1 := by
  obtain ⟨x0, batch, H, W, hx0, hwf, hsh⟩ := hx
  rw [← h.stem] at hx0
  have hready := h.ready batch H W
  have hsh' : x0.shape = [batch, 1, H, W].set 1 l.channels := hsh
  obtain ⟨l', L, hrun, g1, g2, g3, g4⟩ := layers_run net _ _ hready r x x0 l.channels rfl hx0 hwf hsh'
  obtain ⟨t, _, _, hnew⟩ := C42_works net _ _ hready r x x0 l.channels rfl hx0 hwf hsh'
  have hlen : net.layers.length = net.strides.length := by
    rw [← h.fitting.length_eq, h.strides]
    have e1 : ∀ (ls : List Layer) (i c : Nat), (specsFrom blocks i c ls).length = ls.length := by
      intro ls
      induction ls with
      | nil => intros; rfl
      | cons _ _ ih => intros; rw [specsFrom, List.length_cons, ih, List.length_cons]
    unfold channelsOf
    rw [List.map_cons, strideList_eq]
    simp [specsOf, e1]
  have hpassed := runLayers_passed r x0 _ _ _ _ _ hlen hrun
  have hblocks : List.Forall₂ (List.Forall₂ (BlockOk keys n true)) (specsOf blocks l ls) l' :=
    forall₂_trans (Q := List.Forall₂ (PassedBy r)) (S := List.Forall₂ (BlockOk keys n true))
      (fun _ _ _ h1 h2 => forall₂_trans (Q := PassedBy r) (S := BlockOk keys n true) (fun _ _ _ h3 h4 => block_pass r h3 h4) h1 h2) h.fitting hpassed
  -- the first block
  have hfirst : ∀ b bs m, l' = (b :: bs) :: m → b.2.enlState = none ∧ b.2.enlCostate = none ∧ Initial keys b.1 := by
    intro b bs m hl
    obtain ⟨X, b0, bs0, m0, p, ps, c, cs', h1, h2, h3, h4, hf, _⟩ := hready
    obtain ⟨f1, f2, f3⟩ := h.first b0 bs0 m0 h1
    rw [h1, h2] at hrun
    obtain ⟨bs1, L1, L2, l1, k1, _, k3⟩ := runLayers_cons r x0 _ _ _ _ _ _ _ hrun
    obtain ⟨b1, L3, bs2, k4, _, k6⟩ := runBlocks_cons r x0 _ _ _ _ _ k1
    rw [hl] at k3
    have hb : b = b1 := by
      have := (List.cons.inj k3).1
      rw [k6] at this
      exact (List.cons.inj this).1
    subst hb
    obtain ⟨k7, o, k8⟩ := runBlock_passed r x0 b0 b _ _ k4
    have hc : c = l.channels := (List.cons.inj h3).1.symm
    subst hc
    obtain ⟨d, hd1, hd2⟩ := hf.initial x0 hwf (by rw [h4]; exact hsh')
    obtain ⟨o', k9, _⟩ := C41_first X b0.1 b0.2 _ _ hf.able r x0 d hd1 _ hd2
    have k8' : Block.forward b0.1 r ⟨some x0, none, none, none⟩ b0.2 = (b.2, .ok o) := k8
    rw [k9] at k8'
    have he : { b0.2 with notYet := false } = b.2 := congrArg Prod.fst k8'
    rw [← he, k7]
    exact ⟨f1, f2, f3⟩
  refine ⟨fun batch' H' W' => ?_, by rw [g1]; exact hblocks, by rw [g2, h.strides], by rw [g3, h.modules], h.names, by rw [g4, h.stem], by rw [g1]; exact hfirst⟩
  refine ready_data _ _ _ _ hnew rfl ?_
  intro b bs m X c hl hX hdb hc hf y hy hysh
  rw [g1] at hl
  obtain ⟨_, _, f3⟩ := hfirst b bs m hl
  obtain ⟨d, d1, d2, d3⟩ := f3 y hy
  have hkeys : X.H.keys = keys := by
    have hb := hblocks
    rw [hl] at hb
    unfold specsOf at hb
    cases hb with
    | cons hb0 _ =>
      rcases hbl : blocks.getD 0 0 with _ | m'
      · rw [hbl] at hb0
        cases hb0
      · rw [hbl] at hb0
        obtain ⟨qs, hqs, _⟩ := createLayer_cons 0 l.channels m' [l.height, l.width] (l.channels : Int)
        rw [hqs] at hb0
        cases hb0 with
        | cons hb1 _ =>
          rcases hb1.shaped with ⟨hc', _⟩ | ⟨_, dd, e, hd, _, kd, _⟩
          · cases hc'
          obtain ⟨d', hd', hasd⟩ := hf.able.own
          rw [hd] at hd'
          cases hd'
          rw [X.keys, ← hasd.keys, kd]
  refine ⟨d, d1, has_of_shaped (keys_sorted hk d2) (d2.trans hkeys.symm) _ d3 fun _ _ => ?_⟩
  rw [hysh]
  show ([batch', 1, H', W'].set X.H.dim c) = _
  rw [hX.hdim]

end Keep

/-! ## The parameters of a good network -/

section Result
variable [OfNat T 0] {keys : List String} {n a : Nat} {blocks : List Nat} {l : Layer} {ls : List Layer} {st : Tensor α → Py (Tensor α)} {passed : Bool}
  {net : Net α T Θ R β}

theorem Good.flat (hk : Names keys) (h : Good keys n a blocks l ls st passed net) :
    flatNamed (specsOf blocks l ls) net.layers = some2 (own keys (blockOf 0) (n * l.channels * l.height * l.width) ++
      (if passed then later keys n a 1 l ls else laterNew keys n 1 l ls)) := by
  have hb := h.fitting
  obtain ⟨X, b, bs, m, p, ps, c, cs', h1, h2, h3, h4, hf, X1, hs, hrest⟩ := h.ready 0 0 0
  obtain ⟨f1, f2, _⟩ := h.first b bs m h1
  have hc : c = l.channels := (List.cons.inj h3).1.symm
  have hcs : cs' = ls.map Layer.channels := (List.cons.inj h3).2.symm
  subst hc hcs
  rw [h1] at hb ⊢
  unfold specsOf at hb ⊢
  cases hb with
  | cons hb0 hrest' =>
    have hm : ∃ m', blocks.getD 0 0 = m' + 1 := by
      have := hb0.length_eq
      rw [show (createLayer 0 l.channels (blocks.getD 0 0) [l.height, l.width] (l.channels : Int)).length = blocks.getD 0 0 by simp [createLayer]] at this
      exact ⟨bs.length, this⟩
    obtain ⟨m', hm⟩ := hm
    obtain ⟨qs, hqs, hpt⟩ := createLayer_cons 0 l.channels m' [l.height, l.width] (l.channels : Int)
    rw [hm, hqs] at hb0 ⊢
    cases hb0 with
    | cons hb1 hbs =>
      rcases hb1.shaped with ⟨hc', _⟩ | ⟨_, d, e, hd, he, kd, ke, sd, se⟩
      · cases hc'
      dsimp only at sd se
      rw [Int.toNat_natCast] at sd se
      obtain ⟨d', hd', hasd⟩ := hf.able.own
      obtain ⟨e', he', hase⟩ := hf.able.cown
      rw [hd] at hd'
      cases hd'
      rw [he] at he'
      cases he'
      have hown := own_named (blockOf 0) b.2 d e _ hd he kd ke (allShaped_length sd) (allShaped_length se)
      have hreg : b.2.reg = ownReg keys := by
        have := hb1.listed.reg
        rw [f1, f2] at this
        exact (congrArg Prod.fst this).symm
      have hblock : blockNamed (blockName 0 0) b.2 = some2 (own keys (blockOf 0) (n * l.channels * l.height * l.width)) := by
        unfold blockNamed
        rw [hreg]
        exact hown
      have hX : Sized X n l.height l.width := ⟨fun k hk c' => shape_base hasd hf.images.dim n l.channels l.height l.width sd c' k hk,
        fun k hk c' => shape_base hase hf.images.gdim n l.channels l.height l.width se c' k hk⟩
      have hrel := relays_named n passed X qs bs hpt hbs hf.relays
      have hlayer : layerNamed (⟨blockName 0 0, l.channels, [l.height, l.width], (l.channels : Int), false⟩ :: qs) (b :: bs) =
          some2 (own keys (blockOf 0) (n * l.channels * l.height * l.width)) := by
        unfold layerNamed at hrel ⊢
        rw [List.zipWith_cons_cons, List.flatten_cons, hrel, List.append_nil]
        exact hblock
      have hstr := h.strides
      rw [h2] at hstr
      have hflat : flatNamed (specsFrom blocks 1 l.channels ls) m = some2 (if passed then later keys n a 1 l ls else laterNew keys n 1 l ls) := by
        cases ls with
        | nil =>
          cases hrest'
          cases passed <;> rfl
        | cons l1 ls =>
          unfold channelsOf at hstr
          rw [List.map_cons, List.map_cons, strideList] at hstr
          obtain ⟨hp, hps⟩ := List.cons.inj hstr
          subst hp
          obtain ⟨a', _, ha', hX1⟩ := hs
          have : a' = a := by
            have h1 := congrArg Striding.Block.stride ha'
            simp only [List.cons.injEq] at h1
            exact_mod_cast h1.1.symm
          subst this
          rw [hps] at hrest
          refine rest_named hk n a' passed blocks (l1 :: ls) l 1 _ X1 ?_ m hrest hrest'
          rw [hX1]
          exact sized_stride hX _
      unfold flatNamed at hflat ⊢
      rw [List.zipWith_cons_cons, List.flatten_cons, hlayer, hflat, ← some2_append]

theorem Good.named (hk : Names keys) (h : Good keys n a blocks l ls st passed net) (image classes : Nat) :
    named image l.channels ((l :: ls).getLast (by simp)).channels classes net =
      some2 (if passed then expected keys n a image classes l ls else expectedNew keys n image classes l ls) := by
  unfold Census.named
  rw [h.modules, modules_flat _ h.names _ (h.fitting.imp fun _ _ hb => hb.length_eq), h.flat hk]
  have hstem : stemNamed image l.channels = some2 (Census.stem image l) := by
    unfold stemNamed Census.stem some2
    simp only [List.map_cons, List.map_nil]
    rw [Nat.mul_assoc (l.channels * image) 3 3]
  rw [hstem]
  cases passed with
  | true =>
    simp only [if_true]
    unfold expected
    simp only [some2_append]
    rfl
  | false =>
    simp only [Bool.false_eq_true, if_false]
    unfold expectedNew
    simp only [some2_append]
    rfl

end Result

/-! ## New networks -/

theorem getD_of_drop {A : Type} (l : List A) (i : Nat) (x : A) (xs : List A) (d : A) (h : l.drop i = x :: xs) : l.getD i d = x ∧ l.drop (i + 1) = xs := by
  have h0 : (l.drop i)[0]? = l[i + 0]? := List.getElem?_drop
  rw [h] at h0
  refine ⟨by rw [List.getD_eq_getElem?_getD, ← Nat.add_zero i, ← h0]; rfl, ?_⟩
  rw [← List.drop_drop, h]
  rfl

theorem specs_from (blocks : List Nat) (sizes : List (List Nat)) (dims : List Int) (ls : List Layer) (i c0 : Nat)
    (hs : sizes.drop i = ls.map fun x => [x.height, x.width]) (hd : dims.drop i = additionalFrom c0 (ls.map Layer.channels)) :
    (((ls.map Layer.channels).zipIdx i).map fun c => createLayer c.2 c.1 (blocks.getD c.2 0) (sizes.getD c.2 []) (dims.getD c.2 0)) =
      specsFrom blocks i c0 ls := by
  induction ls generalizing i c0 with
  | nil => rfl
  | cons l ls ih =>
    obtain ⟨h1, h2⟩ := getD_of_drop _ _ _ _ [] hs
    obtain ⟨h3, h4⟩ := getD_of_drop _ _ _ _ 0 hd
    rw [List.map_cons, List.zipIdx_cons, List.map_cons, ih (i + 1) l.channels h2 h4]
    dsimp only
    rw [h1, h3]
    rfl

theorem specs_all (blocks : List Nat) (l : Layer) (ls : List Layer) (hb : (l :: ls).length ≤ blocks.length) :
    createLayers (channelsOf l ls) blocks ((l :: ls).map fun x => [x.height, x.width]) = .ok (specsOf blocks l ls) := by
  unfold createLayers channelsOf
  rw [createLayersFrom_ok _ _ _ _ _ (by simpa using hb) (by simp) (by rw [additional_length]; simp)]
  have := specs_from blocks ((l :: ls).map fun x => [x.height, x.width]) (additional ((l :: ls).map Layer.channels)) ls (0 + 1) l.channels rfl rfl
  unfold specsOf
  rw [← this]
  rfl

theorem mapM_forall₂ {A B : Type} (f : A → Py B) (as : List A) (bs : List B) (h : as.mapM f = .ok bs) : List.Forall₂ (fun a b => f a = .ok b) as bs := by
  induction as generalizing bs with
  | nil => cases h; exact .nil
  | cons a as ih =>
    obtain ⟨b, bs', h1, h2, rfl⟩ := mapM_ok_cons f a as bs h
    exact .cons h1 (ih bs' h2)

section Start
variable [OfNat T 0] [OfNat T 1] {model : BlockSpec → Py (Cfg α T Θ R × St α T Θ)} {keys : List String} {n : Nat}

theorem Good.start (hc : ConvClass model keys n) (hk : Names keys) (a : Nat) (ha : 0 < a) (blocks : List Nat) (hpos : ∀ m ∈ blocks, 0 < m) (l : Layer) (ls : List Layer)
    (hmono : (channelsOf l ls).IsChain (· ≤ ·)) (hshrink : Shrinks a l ls) (st : Tensor α → Py (Tensor α)) (hd : Result α → Py β) (net : Net α T Θ R β)
    (h : ResNet.construct model st hd (channelsOf l ls) blocks ((l :: ls).map fun x => [x.height, x.width]) (some (a : Int)) = .ok net) :
    Good keys n a blocks l ls st false net := by
  have hbuilt := fun batch H W => C42_built model st hd _ blocks _ a ha _ (hc.fits hk a batch H W l ls hshrink) hpos hmono net h
  have hlen : (channelsOf l ls).length = ((l :: ls).map fun x => [x.height, x.width]).length := by simp [channelsOf]
  have hbl : (l :: ls).length ≤ blocks.length := by
    by_contra hlt
    unfold ResNet.construct at h
    rw [if_neg (by rw [hlen]; simp), if_neg (by simp [channelsOf]),
      (C42_layers (channelsOf l ls) blocks _ hlen).1 (by simpa [channelsOf] using hlt)] at h
    cases h
  have hspecs := specs_all blocks l ls hbl
  have hnames := C42_names _ blocks _ hlen _ hspecs
  unfold ResNet.construct at h
  rw [if_neg (by rw [hlen]; simp), if_neg (by simp [channelsOf]), hspecs, C42_strides] at h
  simp only [bind, Except.bind] at h
  generalize hL : List.mapM (m := Except Err) (fun l => List.mapM model l) _ = L at h
  cases L with
  | error e => cases h
  | ok layers =>
    cases h
    have hf := mapM_forall₂ _ _ _ hL
    have hf2 : List.Forall₂ (List.Forall₂ fun q b => model q = .ok b) (specsOf blocks l ls) layers := hf.imp fun _ _ h => mapM_forall₂ _ _ _ h
    refine ⟨fun batch H W => (hbuilt batch H W).1, hf2.imp fun _ _ h => h.imp fun q b hq => (hc.ok hk q b hq).1, ?_, rfl, hnames, rfl, ?_⟩
    · unfold channelsOf
      rw [List.map_cons, strideList_eq]
      simp
    · intro b bs m hl
      have hl' : layers = (b :: bs) :: m := hl
      rw [hl'] at hf2
      unfold specsOf at hf2
      cases hf2 with
      | cons h0 _ =>
        generalize createLayer 0 l.channels (blocks.getD 0 0) [l.height, l.width] (l.channels : Int) = qs at h0
        cases h0 with
        | cons hq _ =>
          obtain ⟨f1, f2⟩ := (hc.ok hk _ b hq).1.fresh rfl
          exact ⟨f1, f2, hc.initial _ b hq⟩

end Start

end Verif.Census
