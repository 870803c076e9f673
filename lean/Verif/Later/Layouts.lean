import Verif.Later.Props
import Verif.Whole.Images

/-!
# The layouts of the classes side by side
-/

namespace Verif.Later
open Verif Verif.Tensor Verif.Whole Verif.Models Verif.Conv

/-- Two groups of vector entries. -/
def sideOne (c d d' : Nat) : (Fin c × Fin d) ⊕ (Fin c × Fin d') ≃ Fin c × Fin (d + d') where
  toFun := Sum.elim (fun k => (k.1, Fin.castAdd d' k.2)) (fun k => (k.1, Fin.natAdd d k.2))
  invFun k := Fin.addCases (motive := fun _ => (Fin c × Fin d) ⊕ (Fin c × Fin d')) (fun i => .inl (k.1, i)) (fun i => .inr (k.1, i)) k.2
  left_inv k := by rcases k with ⟨a, b⟩ | ⟨a, b⟩ <;> simp
  right_inv k := by
    obtain ⟨a, b⟩ := k
    refine Fin.addCases (fun i => ?_) (fun i => ?_) b <;> simp

/-- The same for two states with two kinds of entries each. -/
def sideTwo (c d e d' e' : Nat) : Two (Fin c) (Fin d) (Fin e) ⊕ Two (Fin c) (Fin d') (Fin e') ≃ Two (Fin c) (Fin (d + d')) (Fin (e + e')) :=
  (Equiv.sumSumSumComm _ _ _ _).trans (Equiv.sumCongr (sideOne c d d') (sideOne c e e'))

def sideThree (c d e d' e' : Nat) : Three (Fin c) (Fin d) (Fin e) ⊕ Three (Fin c) (Fin d') (Fin e') ≃ Three (Fin c) (Fin (d + d')) (Fin (e + e')) :=
  (Equiv.sumSumSumComm _ _ _ _).trans (Equiv.sumCongr (sideOne c d d') ((Equiv.sumSumSumComm _ _ _ _).trans (Equiv.sumCongr (sideOne c e e') (sideOne c d d'))))

/-- Two groups of channels of images. -/
def sideChannels (c c' h w : Nat) : (Fin c × Fin h × Fin w) ⊕ (Fin c' × Fin h × Fin w) ≃ Fin (c + c') × Fin h × Fin w where
  toFun := Sum.elim (fun k => (Fin.castAdd c' k.1, k.2)) (fun k => (Fin.natAdd c k.1, k.2))
  invFun k := Fin.addCases (motive := fun _ => (Fin c × Fin h × Fin w) ⊕ (Fin c' × Fin h × Fin w)) (fun i => .inl (i, k.2)) (fun i => .inr (i, k.2)) k.1
  left_inv k := by rcases k with ⟨a, b⟩ | ⟨a, b⟩ <;> simp
  right_inv k := by
    obtain ⟨a, b⟩ := k
    refine Fin.addCases (fun i => ?_) (fun i => ?_) a <;> simp

def sideImages (c e c' e' h w : Nat) : Imgs (Fin c) (Fin e) h w ⊕ Imgs (Fin c') (Fin e') h w ≃ Imgs (Fin (c + c')) (Fin (e + e')) h w :=
  (Equiv.sumSumSumComm _ _ _ _).trans (Equiv.sumCongr (sideChannels c c' h w) (sideChannels e e' h w))

theorem pair_inl {c d : Nat} (d' : Nat) {l : List Nat} (h : Valid [c, d] l) : Whole.pair c (d + d') l = (Whole.pair c d l).map fun k => sideOne c d d' (.inl k) := by
  obtain ⟨k, h1, h2⟩ := pair_some h
  rw [h1, ← h2]
  have : k.2.1 < d + d' := by omega
  simp [Whole.pair, this, sideOne, Fin.castAdd, Fin.castLE]

theorem pair_inr {c d' : Nat} (d : Nat) {l : List Nat} (h : Valid [c, d'] l) : Whole.pair c (d + d') (l.set 1 (d + l.getD 1 0)) = (Whole.pair c d' l).map fun k => sideOne c d d' (.inr k) := by
  obtain ⟨k, h1, h2⟩ := pair_some h
  rw [h1, ← h2]
  simp [Whole.pair, sideOne, Fin.natAdd]

theorem triple_inl {c h w : Nat} (c' : Nat) {l : List Nat} (hv : Valid [c, h, w] l) : triple (c + c') h w l = (triple c h w l).map fun k => sideChannels c c' h w (.inl k) := by
  obtain ⟨k, h1, h2⟩ := triple_some hv
  rw [h1, ← h2]
  have : k.1.1 < c + c' := by omega
  simp [triple, this, sideChannels, Fin.castAdd, Fin.castLE]

theorem triple_inr {c' h w : Nat} (c : Nat) {l : List Nat} (hv : Valid [c', h, w] l) :
    triple (c + c') h w (l.set 0 (c + l.getD 0 0)) = (triple c' h w l).map fun k => sideChannels c c' h w (.inr k) := by
  obtain ⟨k, h1, h2⟩ := triple_some hv
  rw [h1, ← h2]
  simp [triple, sideChannels, Fin.natAdd]

theorem compat_last (c d d' : Nat) : Compat 1 [c, d] [c, d'] := by
  exact ⟨rfl, rfl⟩

theorem joined_one (c d d' : Nat) : Joined (layOne c (d + d')) (layOne c d) (layOne c d') (sideOne c d d') 2 where
  pos := by omega
  le := by omega
  parts := by
    refine ⟨[("q1", [c, d], [c, d'])], rfl, rfl, rfl, ?_⟩
    intro p hp
    simp only [List.mem_singleton] at hp
    subst hp
    refine ⟨compat_last c d d', fun idx hv => ?_, fun idx hv => ?_⟩
    · simp only [layOne, if_true, pair_inl d' hv]
    · exact pair_inr d hv

theorem joined_two (c d e d' e' : Nat) : Joined (layTwo c (d + d') (e + e')) (layTwo c d e) (layTwo c d' e') (sideTwo c d e d' e') 2 where
  pos := by omega
  le := by omega
  parts := by
    refine ⟨[("q1", [c, d], [c, d']), ("q2", [c, e], [c, e'])], rfl, rfl, rfl, ?_⟩
    intro p hp
    simp only [List.mem_cons, List.not_mem_nil, or_false] at hp
    rcases hp with rfl | rfl
    · refine ⟨compat_last c d d', fun idx hv => ?_, fun idx hv => ?_⟩
      · simp only [layTwo, if_true, pair_inl d' hv, Option.map_map]
        rfl
      · have := pair_inr d hv
        simp only [layTwo, if_true, Option.map_map]
        refine (congrArg (Option.map _) this).trans ?_
        rw [Option.map_map]
        rfl
    · refine ⟨compat_last c e e', fun idx hv => ?_, fun idx hv => ?_⟩
      · have := pair_inl e' hv
        simp only [layTwo, show ("q2" = "q1") = False by simp, if_true, if_false, Option.map_map]
        rw [this, Option.map_map]
        rfl
      · have := pair_inr e hv
        simp only [layTwo, show ("q2" = "q1") = False by simp, if_true, if_false, Option.map_map]
        refine (congrArg (Option.map _) this).trans ?_
        rw [Option.map_map]
        rfl

theorem joined_three (c d e d' e' : Nat) : Joined (layThree c (d + d') (e + e')) (layThree c d e) (layThree c d' e') (sideThree c d e d' e') 2 where
  pos := by omega
  le := by omega
  parts := by
    refine ⟨[("q1", [c, d], [c, d']), ("q2", [c, e], [c, e']), ("q3", [c, d], [c, d'])], rfl, rfl, rfl, ?_⟩
    intro p hp
    simp only [List.mem_cons, List.not_mem_nil, or_false] at hp
    rcases hp with rfl | rfl | rfl
    · refine ⟨compat_last c d d', fun idx hv => ?_, fun idx hv => ?_⟩
      · simp only [layThree, if_true, pair_inl d' hv, Option.map_map]
        rfl
      · have := pair_inr d hv
        simp only [layThree, if_true, Option.map_map]
        refine (congrArg (Option.map _) this).trans ?_
        rw [Option.map_map]
        rfl
    · refine ⟨compat_last c e e', fun idx hv => ?_, fun idx hv => ?_⟩
      · have := pair_inl e' hv
        simp only [layThree, show ("q2" = "q1") = False by simp, if_true, if_false, Option.map_map]
        rw [this, Option.map_map]
        rfl
      · have := pair_inr e hv
        simp only [layThree, show ("q2" = "q1") = False by simp, if_true, if_false, Option.map_map]
        refine (congrArg (Option.map _) this).trans ?_
        rw [Option.map_map]
        rfl
    · refine ⟨compat_last c d d', fun idx hv => ?_, fun idx hv => ?_⟩
      · have := pair_inl d' hv
        simp only [layThree, show ("q3" = "q1") = False by simp, show ("q3" = "q2") = False by simp, if_true, if_false, Option.map_map]
        rw [this, Option.map_map]
        rfl
      · have := pair_inr d hv
        simp only [layThree, show ("q3" = "q1") = False by simp, show ("q3" = "q2") = False by simp, if_true, if_false, Option.map_map]
        refine (congrArg (Option.map _) this).trans ?_
        rw [Option.map_map]
        rfl

theorem joined_images (c e c' e' h w : Nat) : Joined (layImages (c + c') (e + e') h w) (layImages c e h w) (layImages c' e' h w) (sideImages c e c' e' h w) 1 where
  pos := by omega
  le := by omega
  parts := by
    refine ⟨[("q1", [c, h, w], [c', h, w]), ("q2", [e, h, w], [e', h, w])], rfl, rfl, rfl, ?_⟩
    intro p hp
    simp only [List.mem_cons, List.not_mem_nil, or_false] at hp
    rcases hp with rfl | rfl
    · refine ⟨rfl, fun idx hv => ?_, fun idx hv => ?_⟩
      · simp only [layImages, if_true, triple_inl c' hv, Option.map_map]
        rfl
      · have := triple_inr c hv
        simp only [layImages, if_true, Option.map_map]
        refine (congrArg (Option.map _) this).trans ?_
        rw [Option.map_map]
        rfl
    · refine ⟨rfl, fun idx hv => ?_, fun idx hv => ?_⟩
      · have := triple_inl e' hv
        simp only [layImages, show ("q2" = "q1") = False by simp, if_true, if_false, Option.map_map]
        rw [this, Option.map_map]
        rfl
      · have := triple_inr e hv
        simp only [layImages, show ("q2" = "q1") = False by simp, if_true, if_false, Option.map_map]
        refine (congrArg (Option.map _) this).trans ?_
        rw [Option.map_map]
        rfl

theorem comm_comm {A B C : Type} (e : A ⊕ B ≃ C) : (Equiv.sumComm A B).trans ((Equiv.sumComm B A).trans e) = e := by
  ext k
  cases k <;> rfl

/-- C79: the classes with one, two or three vector tensors in the state: a later block with `d'` (and `e'`) own entries behind a block with `d` (and `e`) entries sees `d + d'` (and `e + e'`) entries, in
whichever order the names of the blocks are.  The own data are zeros of the size of the own state. -/
theorem C79_vector_classes {P R Θ Rb : Type} (cfg : Block.Cfg ℝ ℝ Θ Rb) (hdim : cfg.concatDim = 2) (nm : String) (c d e d' e' : Nat) :
    (nm < cfg.name →
      (∀ cls : Cls (Fin c × Fin (d + d')) (Fin c × Fin (d + d')) P R, cls.lay = layOne c (d + d') → cls.dataLay = layOne c (d + d') →
        Place cls cfg nm (layOne c d) (layOne c d) (layOne c d') (layOne c d') (sideOne c d d') (sideOne c d d') 2) ∧
      (∀ cls : Cls (Two (Fin c) (Fin (d + d')) (Fin (e + e'))) (Two (Fin c) (Fin (d + d')) (Fin (e + e'))) P R, cls.lay = layTwo c (d + d') (e + e') → cls.dataLay = layTwo c (d + d') (e + e') →
        Place cls cfg nm (layTwo c d e) (layTwo c d e) (layTwo c d' e') (layTwo c d' e') (sideTwo c d e d' e') (sideTwo c d e d' e') 2) ∧
      (∀ cls : Cls (Three (Fin c) (Fin (d + d')) (Fin (e + e'))) (Three (Fin c) (Fin (d + d')) (Fin (e + e'))) P R, cls.lay = layThree c (d + d') (e + e') →
        cls.dataLay = layThree c (d + d') (e + e') →
        Place cls cfg nm (layThree c d e) (layThree c d e) (layThree c d' e') (layThree c d' e') (sideThree c d e d' e') (sideThree c d e d' e') 2)) ∧
    (cfg.name < nm →
      (∀ cls : Cls (Fin c × Fin (d' + d)) (Fin c × Fin (d' + d)) P R, cls.lay = layOne c (d' + d) → cls.dataLay = layOne c (d' + d) →
        Place cls cfg nm (layOne c d) (layOne c d) (layOne c d') (layOne c d') ((Equiv.sumComm _ _).trans (sideOne c d' d)) ((Equiv.sumComm _ _).trans (sideOne c d' d)) 2) ∧
      (∀ cls : Cls (Two (Fin c) (Fin (d' + d)) (Fin (e' + e))) (Two (Fin c) (Fin (d' + d)) (Fin (e' + e))) P R, cls.lay = layTwo c (d' + d) (e' + e) → cls.dataLay = layTwo c (d' + d) (e' + e) →
        Place cls cfg nm (layTwo c d e) (layTwo c d e) (layTwo c d' e') (layTwo c d' e') ((Equiv.sumComm _ _).trans (sideTwo c d' e' d e)) ((Equiv.sumComm _ _).trans (sideTwo c d' e' d e)) 2) ∧
      (∀ cls : Cls (Three (Fin c) (Fin (d' + d)) (Fin (e' + e))) (Three (Fin c) (Fin (d' + d)) (Fin (e' + e))) P R, cls.lay = layThree c (d' + d) (e' + e) →
        cls.dataLay = layThree c (d' + d) (e' + e) →
        Place cls cfg nm (layThree c d e) (layThree c d e) (layThree c d' e') (layThree c d' e') ((Equiv.sumComm _ _).trans (sideThree c d' e' d e))
          ((Equiv.sumComm _ _).trans (sideThree c d' e' d e)) 2)) := by
  have f1 : Fills (layOne c d') (layOne c d) (layOne c d') cfg.concatDim 2 := by
    rw [hdim]
    exact ⟨by omega, by simp [layOne], [c, d], by simp [layOne], by simp, by simp [layOne], by simp [layOne, dimSize]⟩
  have f2 : Fills (layTwo c d' e') (layTwo c d e) (layTwo c d' e') cfg.concatDim 2 := by
    rw [hdim]
    exact ⟨by omega, by simp [layTwo], [c, d], by simp [layTwo], by simp, by simp [layTwo], by simp [layTwo, dimSize]⟩
  have f3 : Fills (layThree c d' e') (layThree c d e) (layThree c d' e') cfg.concatDim 2 := by
    rw [hdim]
    exact ⟨by omega, by simp [layThree], [c, d], by simp [layThree], by simp, by simp [layThree], by simp [layThree, dimSize]⟩
  refine ⟨fun hlt => ⟨fun cls h1 h2 => ?_, fun cls h1 h2 => ?_, fun cls h1 h2 => ?_⟩, fun hlt => ⟨fun cls h1 h2 => ?_, fun cls h1 h2 => ?_, fun cls h1 h2 => ?_⟩⟩
  · exact ⟨h1 ▸ layOne_ok _ _, h2 ▸ layOne_ok _ _, ⟨layOne_ok _ _, layOne_ok _ _⟩, ⟨layOne_ok _ _, layOne_ok _ _⟩, f1,
      .inl ⟨hlt, by rw [h1, hdim]; exact joined_one c d d', by rw [h2]; exact joined_one c d d'⟩⟩
  · exact ⟨h1 ▸ layTwo_ok _ _ _, h2 ▸ layTwo_ok _ _ _, ⟨layTwo_ok _ _ _, layTwo_ok _ _ _⟩, ⟨layTwo_ok _ _ _, layTwo_ok _ _ _⟩, f2,
      .inl ⟨hlt, by rw [h1, hdim]; exact joined_two c d e d' e', by rw [h2]; exact joined_two c d e d' e'⟩⟩
  · exact ⟨h1 ▸ layThree_ok _ _ _, h2 ▸ layThree_ok _ _ _, ⟨layThree_ok _ _ _, layThree_ok _ _ _⟩, ⟨layThree_ok _ _ _, layThree_ok _ _ _⟩, f3,
      .inl ⟨hlt, by rw [h1, hdim]; exact joined_three c d e d' e', by rw [h2]; exact joined_three c d e d' e'⟩⟩
  · exact ⟨h1 ▸ layOne_ok _ _, h2 ▸ layOne_ok _ _, ⟨layOne_ok _ _, layOne_ok _ _⟩, ⟨layOne_ok _ _, layOne_ok _ _⟩, f1,
      .inr ⟨hlt, by rw [h1, hdim, comm_comm]; exact joined_one c d' d, by rw [h2, comm_comm]; exact joined_one c d' d⟩⟩
  · exact ⟨h1 ▸ layTwo_ok _ _ _, h2 ▸ layTwo_ok _ _ _, ⟨layTwo_ok _ _ _, layTwo_ok _ _ _⟩, ⟨layTwo_ok _ _ _, layTwo_ok _ _ _⟩, f2,
      .inr ⟨hlt, by rw [h1, hdim, comm_comm]; exact joined_two c d' e' d e, by rw [h2, comm_comm]; exact joined_two c d' e' d e⟩⟩
  · exact ⟨h1 ▸ layThree_ok _ _ _, h2 ▸ layThree_ok _ _ _, ⟨layThree_ok _ _ _, layThree_ok _ _ _⟩, ⟨layThree_ok _ _ _, layThree_ok _ _ _⟩, f3,
      .inr ⟨hlt, by rw [h1, hdim, comm_comm]; exact joined_three c d' e' d e, by rw [h2, comm_comm]; exact joined_three c d' e' d e⟩⟩

/-- C79: the convolutional classes: channels are put side by side, particles have size `h` by `w` and samples `h'` by `w'`. -/
theorem C79_image_classes {P R Θ Rb : Type} (cfg : Block.Cfg ℝ ℝ Θ Rb) (hdim : cfg.concatDim = 1) (nm : String) (c e c' e' h w h' w' : Nat) :
    (nm < cfg.name → ∀ cls : Cls (Imgs (Fin (c + c')) (Fin (e + e')) h w) (Imgs (Fin (c + c')) (Fin (e + e')) h' w') P R, cls.lay = layImages (c + c') (e + e') h w →
        cls.dataLay = layImages (c + c') (e + e') h' w' →
        Place cls cfg nm (layImages c e h w) (layImages c e h' w') (layImages c' e' h w) (layImages c' e' h' w') (sideImages c e c' e' h w) (sideImages c e c' e' h' w') 1) ∧
    (cfg.name < nm → ∀ cls : Cls (Imgs (Fin (c' + c)) (Fin (e' + e)) h w) (Imgs (Fin (c' + c)) (Fin (e' + e)) h' w') P R, cls.lay = layImages (c' + c) (e' + e) h w →
        cls.dataLay = layImages (c' + c) (e' + e) h' w' →
        Place cls cfg nm (layImages c e h w) (layImages c e h' w') (layImages c' e' h w) (layImages c' e' h' w') ((Equiv.sumComm _ _).trans (sideImages c' e' c e h w))
          ((Equiv.sumComm _ _).trans (sideImages c' e' c e h' w')) 1) := by
  have ok := fun a b c d => (C67_image_layout a b c d).1
  have f1 : Fills (layImages c' e' h w) (layImages c e h' w') (layImages c' e' h' w') cfg.concatDim 1 := by
    rw [hdim]
    exact ⟨by omega, by simp [layImages], [c, h', w'], by simp [layImages], by simp, by simp [layImages], by simp [layImages, dimSize]⟩
  refine ⟨fun hlt cls h1 h2 => ?_, fun hlt cls h1 h2 => ?_⟩
  · exact ⟨h1 ▸ ok _ _ _ _, h2 ▸ ok _ _ _ _, ⟨ok _ _ _ _, ok _ _ _ _⟩, ⟨ok _ _ _ _, ok _ _ _ _⟩, f1,
      .inl ⟨hlt, by rw [h1, hdim]; exact joined_images c e c' e' h w, by rw [h2]; exact joined_images c e c' e' h' w'⟩⟩
  · exact ⟨h1 ▸ ok _ _ _ _, h2 ▸ ok _ _ _ _, ⟨ok _ _ _ _, ok _ _ _ _⟩, ⟨ok _ _ _ _, ok _ _ _ _⟩, f1,
      .inr ⟨hlt, by rw [h1, hdim, comm_comm]; exact joined_images c' e' c e h w, by rw [h2, comm_comm]; exact joined_images c' e' c e h' w'⟩⟩

end Verif.Later
