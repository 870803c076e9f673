import Verif.Census.Class

/-!
# What passes and optimiser steps leave unchanged in a network
-/

namespace Verif.Census
open Verif Block ResNet Tensor

variable {α T Θ R β : Type}

/-! ## Modules -/

theorem update_append {K V : Type} [DecidableEq K] (l d : PDict K V) (h : (PDict.keys d ++ PDict.keys l).Nodup) : PDict.update d l = d ++ l := by
  induction l generalizing d with
  | nil => simp [PDict.update_nil]
  | cons p l ih =>
    have hp : p.1 ∉ PDict.keys d := by
      intro hc
      exact (List.nodup_append.1 h).2.2 _ hc _ (by simp [PDict.keys]) rfl
    rw [PDict.update_cons, PDict.set_of_not_mem hp, ih]
    · simp
    · simpa [PDict.keys] using h

/-- The contributions of the blocks of one layer, from position `pre.length` on. -/
theorem layer_flat (qs : List BlockSpec) (i : Nat) (pre bs : List (Cfg α T Θ R × St α T Θ)) (layers : List (List (Cfg α T Θ R × St α T Θ)))
    (hl : layers[i]? = some (pre ++ bs)) (h : qs.length = bs.length) :
    ((qs.zipIdx pre.length).map fun b => (b.1.name, (i, b.2))).flatMap (fun m : String × Nat × Nat => (blockAt layers m.2).elim [] fun b => blockNamed m.1 b.2) =
      layerNamed qs bs := by
  induction qs generalizing pre bs with
  | nil =>
    cases bs with
    | nil => rfl
    | cons => simp at h
  | cons q qs ih =>
    cases bs with
    | nil => simp at h
    | cons b bs =>
      have hat : blockAt layers (i, pre.length) = some b := by
        unfold blockAt
        rw [hl]
        simp
      have := ih (pre ++ [b]) bs (by rw [hl]; simp) (by simpa using h)
      rw [List.length_append, List.length_singleton] at this
      rw [List.zipIdx_cons, List.map_cons, List.flatMap_cons, this]
      dsimp only
      rw [hat]
      rfl

theorem layers_flat (specs : List (List BlockSpec)) (pre layers : List (List (Cfg α T Θ R × St α T Θ)))
    (h : List.Forall₂ (fun q b => q.length = b.length) specs layers) :
    ((specs.zipIdx pre.length).flatMap fun l => l.1.zipIdx.map fun b => (b.1.name, (l.2, b.2))).flatMap
      (fun m : String × Nat × Nat => (blockAt (pre ++ layers) m.2).elim [] fun b => blockNamed m.1 b.2) = flatNamed specs layers := by
  induction h generalizing pre with
  | nil => rfl
  | cons h1 _ ih =>
    rename_i q b specs layers _
    have := ih (pre ++ [b])
    rw [List.length_append, List.length_singleton, List.append_assoc] at this
    rw [List.zipIdx_cons, List.flatMap_cons, List.flatMap_append]
    rw [show pre ++ b :: layers = pre ++ ([b] ++ layers) from rfl, this]
    dsimp only
    rw [show List.zipIdx q = q.zipIdx ([] : List (Cfg α T Θ R × St α T Θ)).length from rfl,
      layer_flat q pre.length [] b _ (by simp) h1]
    rfl

theorem keys_blocks (n : Nat) (specs : List (List BlockSpec)) : PDict.keys ((specs.zipIdx n).flatMap fun l => l.1.zipIdx.map fun b => (b.1.name, (l.2, b.2))) =
    specs.flatten.map BlockSpec.name := by
  induction specs generalizing n with
  | nil => rfl
  | cons l specs ih =>
    rw [List.zipIdx_cons, List.flatMap_cons, PDict.keys_append, ih, List.flatten_cons, List.map_append]
    congr 1
    unfold PDict.keys
    rw [List.map_map]
    have : (Prod.fst ∘ fun b : BlockSpec × Nat => (b.1.name, (n, b.2))) = BlockSpec.name ∘ Prod.fst := rfl
    dsimp only
    rw [this, ← List.map_map, List.zipIdx_map_fst]

/-- The registered blocks contribute in their order. -/
theorem modules_flat (specs : List (List BlockSpec)) (hn : (specs.flatten.map BlockSpec.name).Nodup) (layers : List (List (Cfg α T Θ R × St α T Θ)))
    (h : List.Forall₂ (fun q b => q.length = b.length) specs layers) :
    (registerBlocks specs).flatMap (fun m => (blockAt layers m.2).elim [] fun b => blockNamed m.1 b.2) = flatNamed specs layers := by
  have hr : registerBlocks specs = (specs.zipIdx.flatMap fun l => l.1.zipIdx.map fun b => (b.1.name, (l.2, b.2))) := by
    show PDict.update [] _ = _
    rw [update_append]
    · rfl
    · rw [keys_blocks]
      simpa [PDict.keys] using hn
  rw [hr]
  exact layers_flat specs [] layers h

/-! ## Other data -/

/-- The same particles with data of other sizes. -/
def reData (X : Fams) (db : List Nat) (h : db.length = X.db.length) : Fams where
  F := X.F
  G := X.G
  H := ⟨X.H.dim, X.H.keys, fun _ => db⟩
  db := db
  goodF := X.goodF
  goodG := X.goodG
  goodH := ⟨X.goodH.keys_ne, fun k hk => by have := X.goodH.dim_lt k hk; rw [X.base] at this; show _ < db.length; rw [h]; exact this, X.goodH.dim_le⟩
  sameDim := X.sameDim
  keys := X.keys
  base := rfl
  rank := fun k hk => by rw [h]; exact X.rank k hk

section Ready
variable [OfNat T 0]

theorem able_data {X : Fams} {cfg : Cfg α T Θ R} {s : St α T Θ} {v cv : String → Nat} (h : Able X cfg s v cv) (db : List Nat) (hd : db.length = X.db.length) :
    Able (reData X db hd) cfg s v cv := ⟨h.concat, h.dim, h.out, h.own, h.cown, h.time⟩

theorem relay_data {X : Fams} {cfg : Cfg α T Θ R} {s : St α T Θ} (h : Relay X cfg s) (db : List Nat) (hd : db.length = X.db.length) :
    Relay (reData X db hd) cfg s := ⟨h.concat, h.out, h.own, h.cown, h.enl, h.cenl, h.time⟩

theorem images_data {X : Fams} (h : Images X) (db : List Nat) (hd : db.length = X.db.length) : Images (reData X db hd) :=
  ⟨h.dim, by show 4 ≤ db.length; rw [hd]; exact h.rank, fun k hk => (h.state k hk).trans hd.symm, fun k hk => (h.costate k hk).trans hd.symm⟩

theorem strided_data {X X1 : Fams} {p : Option Striding.Block} (h : StridedBy X X1 p) (db : List Nat) (hd : db.length = X.db.length) :
    ∃ db1, ∃ hd1 : db1.length = X1.db.length, StridedBy (reData X db hd) (reData X1 db1 hd1) p := by
  cases p with
  | none =>
    have : X1 = X := h
    subst this
    exact ⟨db, hd, rfl⟩
  | some p =>
    obtain ⟨a, ha, rfl, rfl⟩ := h
    have hl : (Striding.targetShape [(a, 2), (a, 3)] db).length = (strideFams a X).db.length := by
      show _ = (Striding.targetShape _ _).length
      rw [targetShape_length, targetShape_length, hd]
    exact ⟨_, hl, a, ha, rfl, rfl⟩

omit [OfNat T 0] in
theorem data_length {X0 X : Fams} (h : X.H = X0.H) : X.db.length = X0.db.length := by
  have h1 := X.base
  have h2 := X0.base
  rw [h, h2] at h1
  exact congrArg List.length (congrFun h1 "").symm

theorem rest_data (ls : List (List (Cfg α T Θ R × St α T Θ))) (ps : List (Option Striding.Block)) (cs : List Nat) (nm : String) (X0 : Fams) (c0 : Nat)
    (h : Rest nm X0 c0 ls ps cs) (db : List Nat) (hd : db.length = X0.db.length) : Rest nm (reData X0 db hd) c0 ls ps cs := by
  induction ls generalizing ps cs nm X0 c0 db with
  | nil =>
    cases ps <;> cases cs <;> first | exact trivial | cases h
  | cons bs ls ih =>
    cases bs with
    | nil => cases ps <;> cases cs <;> cases h
    | cons b bs =>
      cases ps with
      | nil => cases cs <;> cases h
      | cons p ps =>
        cases cs with
        | nil => cases h
        | cons c cs =>
          obtain ⟨X, hl, X1, hs, hrest⟩ := h
          have hdX : db.length = X.db.length := hd.trans (data_length hl.data).symm
          obtain ⟨db1, hd1, hs1⟩ := strided_data hs db hdX
          refine ⟨reData X db hdX, ⟨images_data hl.images _ _, hl.more, ?_, hl.subF, hl.subG, hl.enlarges, able_data hl.able _ _, hl.prepared,
            fun b' hb' => relay_data (hl.relays b' hb') _ _, hl.names⟩, reData X1 db1 hd1, hs1, ih ps cs _ X1 c hrest db1 hd1⟩
          show (⟨X.H.dim, X.H.keys, fun _ => db⟩ : Fam) = ⟨X0.H.dim, X0.H.keys, fun _ => db⟩
          rw [hl.data]

/-- A network ready for images of some size is ready for images of every size for which the first block can make data. -/
theorem ready_data (net : Net α T Θ R β) (db db' : List Nat) (cs : List Nat) (h : NetReady net db cs) (hl : db'.length = db.length)
    (hi : ∀ b bs l X c, net.layers = (b :: bs) :: l → Images X → X.db = db → cs[0]? = some c → FirstReady X c b bs →
      ∀ x : Tensor α, x.WF → x.shape = db'.set 1 c → ∃ d, b.1.initialData x = .ok d ∧ Has ⟨X.H.dim, X.H.keys, fun _ => db'⟩ (fun _ => c) d) :
    NetReady net db' cs := by
  obtain ⟨X, b, bs, l, p, ps, c, cs', h1, h2, rfl, rfl, hf, X1, hp, hrest⟩ := h
  obtain ⟨db1, hd1, hs1⟩ := strided_data hp db' hl
  exact ⟨reData X db' hl, b, bs, l, p, ps, c, cs', h1, h2, rfl, rfl, ⟨images_data hf.images _ _, able_data hf.able _ _,
    fun b' hb' => relay_data (hf.relays b' hb') _ _, hf.names, hi b bs l X c h1 hf.images rfl rfl hf⟩, reData X1 db1 hd1, hs1, rest_data _ _ _ _ _ _ hrest _ _⟩

/-! ## Optimiser steps -/

theorem able_train {X : Fams} {cfg : Cfg α T Θ R} {s : St α T Θ} {v cv : String → Nat} (h : Able X cfg s v cv) (f : Ref → List α → List α) (g : Θ → Θ) :
    Able X cfg (train f g s) v cv := by
  obtain ⟨own, ho, hown⟩ := h.own
  obtain ⟨cown, hco, hcown⟩ := h.cown
  refine ⟨h.concat, h.dim, h.out, ⟨_, (?_ : s.state.map _ = _), has_train hown (fun k => newValues f s.reg (.state k)) fun _ _ => newValues_length _ _ _ _⟩,
    ⟨_, (?_ : s.costate.map _ = _), has_train hcown (fun k => newValues f s.reg (.costate k)) fun _ _ => newValues_length _ _ _ _⟩, h.time⟩
  · rw [ho]
    rfl
  · rw [hco]
    rfl

theorem relay_train {X : Fams} {cfg : Cfg α T Θ R} {s : St α T Θ} (h : Relay X cfg s) (f : Ref → List α → List α) (g : Θ → Θ) :
    Relay X cfg (train f g s) := by
  refine ⟨h.concat, h.out, (?_ : s.state.map _ = _), (?_ : s.costate.map _ = _), (?_ : s.enlState.map _ = _), (?_ : s.enlCostate.map _ = _), h.time⟩
  · rw [h.own]; rfl
  · rw [h.cown]; rfl
  · rw [h.enl]; rfl
  · rw [h.cenl]; rfl

/-- What an optimiser step does to one block of a network. -/
def trainBlock (f : String → Ref → List α → List α) (g : String → Θ → Θ) (b : Cfg α T Θ R × St α T Θ) : Cfg α T Θ R × St α T Θ :=
  (b.1, train (f b.1.name) (g b.1.name) b.2)

omit [OfNat T 0] in
theorem names_train (f : String → Ref → List α → List α) (g : String → Θ → Θ) (bs : List (Cfg α T Θ R × St α T Θ)) :
    ((bs.map (trainBlock f g)).map fun b => b.1.name) = bs.map fun b => b.1.name := by
  rw [List.map_map]
  rfl

theorem relays_train {X : Fams} {bs : List (Cfg α T Θ R × St α T Θ)} (h : ∀ b ∈ bs, Relay X b.1 b.2) (f : String → Ref → List α → List α) (g : String → Θ → Θ) :
    ∀ b ∈ bs.map (trainBlock f g), Relay X b.1 b.2 := by
  intro b hb
  obtain ⟨b0, hb0, rfl⟩ := List.mem_map.1 hb
  exact relay_train (h b0 hb0) _ _

theorem rest_train (f : String → Ref → List α → List α) (g : String → Θ → Θ) (ls : List (List (Cfg α T Θ R × St α T Θ))) (ps : List (Option Striding.Block))
    (cs : List Nat) (nm : String) (X0 : Fams) (c0 : Nat) (h : Rest nm X0 c0 ls ps cs) : Rest nm X0 c0 (ls.map fun l => l.map (trainBlock f g)) ps cs := by
  induction ls generalizing ps cs nm X0 c0 with
  | nil => exact h
  | cons bs ls ih =>
    cases bs with
    | nil => cases ps <;> cases cs <;> cases h
    | cons b bs =>
      cases ps with
      | nil => cases cs <;> cases h
      | cons p ps =>
        cases cs with
        | nil => cases h
        | cons c cs =>
          obtain ⟨X, hl, X1, hs, hrest⟩ := h
          obtain ⟨t1, t2⟩ := C41_trained X X0.F X0.G b.1 b.2 _ _ _ _ hl.able hl.prepared (f b.1.name) (g b.1.name)
          refine ⟨X, ⟨hl.images, hl.more, hl.data, hl.subF, hl.subG, hl.enlarges, t1, t2, relays_train hl.relays f g, ?_⟩, X1, hs, ?_⟩
          · rw [names_train]
            exact hl.names
          · rw [names_train]
            exact ih ps cs _ X1 c hrest

theorem ready_train (f : String → Ref → List α → List α) (g : String → Θ → Θ) (net : Net α T Θ R β) (db cs : List Nat) (h : NetReady net db cs) :
    NetReady (trainNet f g net) db cs := by
  obtain ⟨X, b, bs, l, p, ps, c, cs', h1, h2, rfl, rfl, hf, X1, hp, hrest⟩ := h
  refine ⟨X, trainBlock f g b, bs.map (trainBlock f g), l.map fun l => l.map (trainBlock f g), p, ps, c, cs', ?_, h2, rfl, rfl,
    ⟨hf.images, able_train hf.able _ _, relays_train hf.relays f g, ?_, hf.initial⟩, X1, hp, ?_⟩
  · show net.layers.map _ = _
    rw [h1]
    rfl
  · rw [names_train]
    exact hf.names
  · rw [names_train]
    exact rest_train f g _ _ _ _ _ _ hrest

end Ready

theorem allShaped_train (d : TDict α) (sh : List Nat) (h : AllShaped d sh) (v : String → List α → List α) (hv : ∀ k l, (v k l).length = l.length) :
    AllShaped (d.map fun p => (p.1, { p.2 with data := v p.1 p.2.data })) sh := by
  intro p hp
  obtain ⟨q, hq, rfl⟩ := List.mem_map.1 hp
  obtain ⟨h1, h2⟩ := h q hq
  exact ⟨(hv _ _).trans h1, h2⟩

theorem block_train {keys : List String} {n : Nat} {passed : Bool} {q : BlockSpec} {b : Cfg α T Θ R × St α T Θ} (h : BlockOk keys n passed q b)
    (f : String → Ref → List α → List α) (g : String → Θ → Θ) : BlockOk keys n passed q (trainBlock f g b) := by
  refine ⟨?_, train_listed _ _ _ _ h.listed, h.used, fun hp => ?_⟩
  · rcases h.shaped with ⟨h1, h2, h3⟩ | ⟨h1, d, c, h2, h3, kd, kc, sd, sc⟩
    · refine .inl ⟨h1, (?_ : b.2.state.map _ = _), (?_ : b.2.costate.map _ = _)⟩
      · rw [h2]; rfl
      · rw [h3]; rfl
    · refine .inr ⟨h1, _, _, (?_ : b.2.state.map _ = _), (?_ : b.2.costate.map _ = _), ?_, ?_,
        allShaped_train d _ sd (fun k => newValues (f b.1.name) b.2.reg (.state k)) fun _ _ => newValues_length _ _ _ _,
        allShaped_train c _ sc (fun k => newValues (f b.1.name) b.2.reg (.costate k)) fun _ _ => newValues_length _ _ _ _⟩
      · rw [h2]; rfl
      · rw [h3]; rfl
      · rw [← kd]
        simp [SDict.keys, Function.comp_def]
      · rw [← kc]
        simp [SDict.keys, Function.comp_def]
  · obtain ⟨f1, f2⟩ := h.fresh hp
    refine ⟨(?_ : b.2.enlState.map _ = _), (?_ : b.2.enlCostate.map _ = _)⟩
    · rw [f1]; rfl
    · rw [f2]; rfl

/-! ## Passes -/

section Pass
variable [Zero α]

/-- A successful pass through one block. -/
def PassedBy (r : R) (b b' : Cfg α T Θ R × St α T Θ) : Prop := b'.1 = b.1 ∧ ∃ i o, Block.forward b.1 r i b.2 = (b'.2, .ok o)

theorem runBlock_passed (r : R) (x : Tensor α) (b b' : Cfg α T Θ R × St α T Θ) (L L' : Loop α) (h : runBlock r x b L = (b', .ok L')) :
    b'.1 = b.1 ∧ ∃ o, Block.forward b.1 r (blockInput x L.dicts) b.2 = (b'.2, .ok o) := by
  unfold runBlock at h
  split at h
  · cases h
  · rename_i s o hs
    cases h
    exact ⟨rfl, o, hs⟩

theorem runBlocks_cons (r : R) (x : Tensor α) (b : Cfg α T Θ R × St α T Θ) (bs bs' : List (Cfg α T Θ R × St α T Θ)) (L L' : Loop α)
    (h : runBlocks r x (b :: bs) L = (bs', .ok L')) : ∃ b1 L1 bs1, runBlock r x b L = (b1, .ok L1) ∧ runBlocks r x bs L1 = (bs1, .ok L') ∧ bs' = b1 :: bs1 := by
  rw [runBlocks] at h
  split at h
  · cases h
  · rename_i b1 L1 hb
    refine ⟨b1, L1, (runBlocks r x bs L1).1, hb, ?_, ?_⟩
    · have hs : (runBlocks r x bs L1).2 = .ok L' := congrArg Prod.snd h
      exact Prod.ext rfl hs
    · exact (congrArg Prod.fst h).symm

theorem runBlocks_passed (r : R) (x : Tensor α) (bs bs' : List (Cfg α T Θ R × St α T Θ)) (L L' : Loop α) (h : runBlocks r x bs L = (bs', .ok L')) :
    List.Forall₂ (PassedBy r) bs bs' := by
  induction bs generalizing bs' L with
  | nil => cases h; exact .nil
  | cons b bs ih =>
    obtain ⟨b1, L1, bs1, h1, h2, rfl⟩ := runBlocks_cons r x b bs bs' L L' h
    obtain ⟨k1, o, k2⟩ := runBlock_passed r x b b1 L L1 h1
    exact .cons ⟨k1, _, o, k2⟩ (ih bs1 L1 h2)

theorem runLayers_cons (r : R) (x : Tensor α) (bs : List (Cfg α T Θ R × St α T Θ)) (l l' : List (List (Cfg α T Θ R × St α T Θ))) (p : Option Striding.Block)
    (ps : List (Option Striding.Block)) (L L' : Loop α) (h : runLayers r x (bs :: l) (p :: ps) L = (l', .ok L')) :
    ∃ bs1 L1 L2 l1, runBlocks r x bs L = (bs1, .ok L1) ∧ runLayers r x l ps L2 = (l1, .ok L') ∧ l' = bs1 :: l1 := by
  rw [runLayers] at h
  split at h
  · cases h
  · rename_i bs1 L1 hb
    split at h
    · cases h
    · rename_i L2 hs
      refine ⟨bs1, L1, L2, (runLayers r x l ps L2).1, hb, ?_, ?_⟩
      · have hs : (runLayers r x l ps L2).2 = .ok L' := congrArg Prod.snd h
        exact Prod.ext rfl hs
      · exact (congrArg Prod.fst h).symm

theorem runLayers_passed (r : R) (x : Tensor α) (l l' : List (List (Cfg α T Θ R × St α T Θ))) (ps : List (Option Striding.Block)) (L L' : Loop α)
    (hl : l.length = ps.length) (h : runLayers r x l ps L = (l', .ok L')) : List.Forall₂ (List.Forall₂ (PassedBy r)) l l' := by
  induction l generalizing l' ps L with
  | nil =>
    cases ps with
    | nil => cases h; exact .nil
    | cons => simp at hl
  | cons bs l ih =>
    cases ps with
    | nil => simp at hl
    | cons p ps =>
      obtain ⟨bs1, L1, L2, l1, h1, h2, rfl⟩ := runLayers_cons r x bs l l' p ps L L' h
      exact .cons (runBlocks_passed r x bs bs1 L L1 h1) (ih l1 ps L2 (by simpa using hl) h2)

theorem forall₂_trans {A B C : Type} {P : A → B → Prop} {Q : B → C → Prop} {S : A → C → Prop} (hs : ∀ a b c, P a b → Q b c → S a c) {as : List A} {bs : List B}
    {cs : List C} (h : List.Forall₂ P as bs) (h' : List.Forall₂ Q bs cs) : List.Forall₂ S as cs := by
  induction h generalizing cs with
  | nil => cases h'; exact .nil
  | cons h1 _ ih => cases h' with | cons g1 g2 => exact .cons (hs _ _ _ h1 g1) (ih g2)

theorem block_pass {keys : List String} {n : Nat} {passed : Bool} {q : BlockSpec} {b b' : Cfg α T Θ R × St α T Θ} (r : R) (h : BlockOk keys n passed q b)
    (hp : PassedBy r b b') : BlockOk keys n true q b' := by
  obtain ⟨_, i, o, hf⟩ := hp
  obtain ⟨h1, h2, h3, h4⟩ := forward_listed b.1 r i _ b.2 b'.2 o hf
  refine ⟨?_, h4 h.listed, h1, fun hc => by cases hc⟩
  unfold Shaped
  rw [h2, h3]
  exact h.shaped

end Pass

end Verif.Census
