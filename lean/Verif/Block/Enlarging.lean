import Verif.Block.ChainProps
import Verif.Enlarge.Props

/-!
# C41: chains in which pass-through states are enlarged, and blocks without own state

Convolutional models enlarge the particles that are passed through to the size of their own particles (dimensions 2 and 3).
-/

namespace Verif.Block
open Verif Tensor

variable {α T Θ R : Type}

/-- Every tensor of family `F0` can be enlarged to one of family `F` with the same number of channels. -/
structure Sub (F0 F : Fam) : Prop where
  dim0 : F0.dim = 1
  dim : F.dim = 1
  keys : F0.keys = F.keys
  fits : ∀ k ∈ F.keys, ∀ c, Enlarge.Fits ((F0.base k).set 1 c) ((F.base k).set 1 c)

/-- An enlargement entry that leads from size `cur` to size `tgt`. -/
def EntryFits (cur tgt : List Nat) : Enlarge.Entry α → Prop
  | none => cur = tgt
  | some e => e.1.length = vol tgt - vol cur ∧ e.2 = List.zipWith (fun (c n : Nat) => (n : Int) - (c : Int)) cur tgt

/-- Enlargement parameters for tensors of family `F0` with `w` channels. -/
def Fitting (F0 F : Fam) (w : String → Nat) (l : SDict String (Enlarge.Entry α)) : Prop :=
  SDict.keys l = F.keys ∧ ∀ p ∈ l, EntryFits ((F0.base p.1).set 1 (w p.1)) ((F.base p.1).set 1 (w p.1)) p.2

theorem create_fitting {F0 F : Fam} (hF : F.Good) (hsub : Sub F0 F) (mk : String → String → Nat → List α)
    (hmk : ∀ dk k n, (mk dk k n).length = n) (n : String) (st own : TDict α) (w v : String → Nat) (hst : Has F0 w st) (hown : Has F v own)
    (dims : List Nat) :
    ∃ l, Enlarge.create mk [(n, st)] (some own) (some dims) = .ok (some [(n, l)]) ∧ Fitting F0 F w l := by
  let cur : String → List Nat := fun k => (F0.base k).set 1 (w k)
  let tgt : String → List Nat := fun k => (F.base k).set 1 (w k)
  let ent : String → String × TDict α → Enlarge.Entry α := fun k b =>
    (if cur k = tgt k then none else some (vol (tgt k) - vol (cur k), List.zipWith (fun (c n : Nat) => (n : Int) - (c : Int)) (cur k) (tgt k)) :
      Option (Nat × List Int)).map (fun c => (mk b.1 k c.1, c.2))
  have hc := Enlarge.create_ok (mk := mk) ent [(n, st)] (by simp [SDict.Sorted]) own hown.sorted (hown.ne hF) dims (by
    intro p hp b hb
    rw [List.mem_singleton] at hb
    subst hb
    have hk := hown.mem_keys hp
    obtain ⟨t, h1, _, h3⟩ := get?_of_has hst p.1 (by rw [hsub.keys]; exact hk)
    refine ⟨t, h1, ?_⟩
    have hfits := hsub.fits p.1 hk (w p.1)
    have hl := hF.dim_lt p.1 hk
    rw [hsub.dim] at hl
    have hl0 : 1 < (F0.base p.1).length := by
      have := hfits.1
      simp only [List.length_set] at this
      omega
    rw [hsub.dim0] at h3
    have hs : Enlarge.setChannel p.2.shape t.shape = .ok (tgt p.1) := by
      unfold Enlarge.setChannel
      rw [h3, (hown.shape p hp).2, hsub.dim]
      simp [hl, hl0, tgt]
    unfold Enlarge.entryFor
    rw [hs]
    simp only [bind, Except.bind]
    rw [h3, Enlarge.C24_created _ _ hfits])
  refine ⟨_, hc, ?_, ?_⟩
  · show SDict.keys ((SDict.keys own).map _) = _
    rw [hown.keys]
    simp [SDict.keys, Function.comp_def]
  · intro p hp
    obtain ⟨k, hk, rfl⟩ := List.mem_map.1 (show p ∈ (SDict.keys own).map (fun k => (k, ent k (n, st))) from hp)
    dsimp only
    by_cases h : cur k = tgt k
    · have : ent k (n, st) = none := by simp only [ent, if_pos h, Option.map_none]
      rw [this]
      exact h
    · have : ent k (n, st) = some (mk n k (vol (tgt k) - vol (cur k)), List.zipWith (fun (c n : Nat) => (n : Int) - (c : Int)) (cur k) (tgt k)) := by
        simp only [ent, if_neg h, Option.map_some]
      rw [this]
      exact ⟨hmk _ _ _, rfl⟩

theorem entry_works (t : Tensor α) (ht : t.WF) (tgt : List Nat) (hfit : Enlarge.Fits t.shape tgt) (h2 : 2 ≤ t.shape.length)
    (hch : t.shape[1]? = tgt[1]?) (e : Enlarge.Entry α) (he : EntryFits t.shape tgt e) :
    ∃ r new, Enlarge.enlargeEntry (t, e) = .ok r ∧ Enlarge.Enlarged t tgt new r := by
  cases e with
  | none =>
    have he : t.shape = tgt := he
    refine ⟨t, [], rfl, ht, he, ?_, by simp⟩
    intro idx x hx
    have : Enlarge.shifted t.shape tgt idx = idx := by
      rw [he]
      apply List.ext_getElem?
      intro i
      simp [Enlarge.shifted, List.getElem?_mapIdx]
    rw [this]; exact hx
  | some e =>
    obtain ⟨h3, h4⟩ := he
    obtain ⟨r, h5, h6⟩ := Enlarge.C23_enlarge t ht tgt hfit h2 hch e.1 h3
    refine ⟨r, _, ?_, h6⟩
    show Enlarge.enlargeTensor t e.1 e.2 = _
    rw [h4]
    exact h5

/-- Enlarging the block `n`: all names stay, all tensors get the new size, with the old values in the middle. -/
theorem enlarge_fitting {F0 F : Fam} (hF : F.Good) (hsub : Sub F0 F) (n n' : String) (st : TDict α) (w : String → Nat) (hst : Has F0 w st)
    (l : SDict String (Enlarge.Entry α)) (hl : Fitting F0 F w l) :
    ∃ st', Enlarge.enlargeDicts [(n, st)] (some [(n', l)]) = .ok [(n, st')] ∧ Has F w st' ∧
      ∀ k t, SDict.get? st k = some t → ∃ t' new, SDict.get? st' k = some t' ∧ Enlarge.Enlarged t t'.shape new t' := by
  have hks : SDict.keys l = SDict.keys st := by rw [hl.1, hst.keys, hsub.keys]
  let f : String → Enlarge.Entry α := fun k => (SDict.get? l k).getD none
  have hsl : SDict.Sorted l := sorted_of_keys hks hst.sorted
  have hlf : l = (SDict.keys st).map (fun k => (k, f k)) := by
    rw [← hks]
    unfold SDict.keys
    rw [List.map_map]
    conv_lhs => rw [← List.map_id l]
    apply List.map_congr_left
    intro p hp
    have := (SDict.get?_eq_some_iff hsl).2 hp
    simp only [Function.comp, f, this, id, Option.getD_some]
  have hzip : Enlarge.zipItems st l = st.map (fun p => (p.1, (p.2, f p.1))) := by
    conv_lhs => rw [hlf]
    exact Enlarge.zipItems_keys st f
  have hone : ∀ k t, SDict.get? st k = some t → ∃ r new, Enlarge.enlargeEntry (t, f k) = .ok r ∧ Enlarge.Enlarged t ((F.base k).set 1 (w k)) new r := by
    intro k t ht
    have hm := SDict.mem_of_get?_eq_some ht
    obtain ⟨hwf, hsh⟩ := hst.shape _ hm
    have hk : k ∈ F.keys := by rw [← hsub.keys]; exact hst.mem_keys hm
    have hfits := hsub.fits k hk (w k)
    have hlen := hF.dim_lt k hk
    rw [hsub.dim] at hlen
    have hlen0 : 1 < (F0.base k).length := by
      have := hfits.1
      simp only [List.length_set] at this
      omega
    dsimp only at hsh
    rw [hsub.dim0] at hsh
    refine entry_works t hwf _ (by rw [hsh]; exact hfits) (by rw [hsh, List.length_set]; omega) (by rw [hsh]; simp [hlen, hlen0]) _ ?_
    rw [hsh]
    have hkl : k ∈ SDict.keys l := by rw [hl.1]; exact hk
    cases hg : SDict.get? l k with
    | none => exact absurd hkl (SDict.get?_eq_none_iff.1 hg)
    | some e =>
      have := hl.2 _ (SDict.mem_of_get?_eq_some hg)
      simpa only [f, hg, Option.getD_some] using this
  have hk : SDict.keys (st.map (fun p => (p.1, (p.2, f p.1)))) = SDict.keys st := by
    simp [SDict.keys, Function.comp_def]
  have hs : SDict.Sorted (st.map (fun p => (p.1, (p.2, f p.1)))) := sorted_of_keys hk hst.sorted
  obtain ⟨st', hst'⟩ := SDict.exists_mapsTo (f := Enlarge.enlargeEntry) (st.map (fun p => (p.1, (p.2, f p.1)))) (by
    intro q hq
    obtain ⟨p, hp, rfl⟩ := List.mem_map.1 hq
    obtain ⟨r, _, h, _⟩ := hone p.1 p.2 ((SDict.get?_eq_some_iff hst.sorted).2 hp)
    exact ⟨r, h⟩)
  have hkeys : SDict.keys st' = SDict.keys st := hst'.keys.trans hk
  have hget : ∀ k t, SDict.get? st k = some t → ∃ t' new, SDict.get? st' k = some t' ∧ Enlarge.Enlarged t ((F.base k).set 1 (w k)) new t' := by
    intro k t ht
    obtain ⟨r, new, h1, h2⟩ := hone k t ht
    have hin : SDict.get? (st.map (fun p => (p.1, (p.2, f p.1)))) k = some (t, f k) :=
      SDict.get?_eq_some_of_mem hs.nodup (List.mem_map.2 ⟨(k, t), SDict.mem_of_get?_eq_some ht, rfl⟩)
    obtain ⟨w', hw1, hw2⟩ := hst'.get? hin
    rw [h1] at hw1
    cases hw1
    exact ⟨r, new, hw2, h2⟩
  refine ⟨st', ?_, ⟨sorted_of_keys hkeys hst.sorted, by rw [hkeys, hst.keys, hsub.keys], ?_⟩, ?_⟩
  · have hm := (SDict.mapLoop_ok_iff hs st').2 hst'
    unfold Enlarge.enlargeDicts
    show SDict.mapLoop (fun x => SDict.mapLoop Enlarge.enlargeEntry (Enlarge.zipItems x.1 x.2)) [(n, (st, l))] = _
    unfold SDict.mapLoop at hm ⊢
    rw [List.foldlM_cons]
    dsimp only
    rw [hzip, hm]
    rfl
  · intro p hp
    have hpk : p.1 ∈ SDict.keys st := by rw [← hkeys]; exact List.mem_map_of_mem hp
    rw [hst.keys] at hpk
    obtain ⟨t, ht, _⟩ := get?_of_has hst p.1 hpk
    obtain ⟨t', _, h1, h2⟩ := hget p.1 t ht
    have : t' = p.2 := by
      have h3 := (SDict.get?_eq_some_iff (sorted_of_keys hkeys hst.sorted)).2 hp
      rw [h1] at h3
      exact Option.some.inj h3
    subst this
    rw [hsub.dim]
    exact ⟨h2.wf, h2.shape⟩
  · intro k t ht
    obtain ⟨t', new, h1, h2⟩ := hget k t ht
    exact ⟨t', new, h1, by rw [h2.shape]; exact h2⟩

/-! ## Registration -/

theorem registerAll_ok (l : List (String × Ref)) (h : ∀ p ∈ l, p.1 ≠ "" ∧ '.' ∉ p.1.toList) (reg : PDict String Ref) :
    ∃ reg', registerAll reg l = (reg', .ok ()) := by
  induction l generalizing reg with
  | nil => exact ⟨reg, rfl⟩
  | cons p l ih =>
    have hp := h p (by simp)
    have : register reg p.1 p.2 = .ok (reg.set p.1 p.2) := by
      unfold register
      rw [if_neg (by rintro (h1 | h1); exacts [hp.1 h1, hp.2 h1])]
    unfold registerAll
    rw [this]
    exact ih (fun q hq => h q (List.mem_cons_of_mem _ hq)) _

theorem enlNames_valid (ref : String → String → Ref) (e : Enl α) (h : ∀ l, e = some l → ∀ b ∈ l, ∀ k ∈ SDict.keys b.2, '.' ∉ k.toList) :
    ∀ p ∈ enlNames ref e, p.1 ≠ "" ∧ '.' ∉ p.1.toList := by
  intro p hp
  unfold enlNames at hp
  obtain ⟨b, hb, hp⟩ := List.mem_flatMap.1 hp
  obtain ⟨q, hq, hp⟩ := List.mem_filterMap.1 hp
  have hk : '.' ∉ q.1.toList := by
    cases e with
    | none => cases hb
    | some l => exact h l rfl b hb q.1 (List.mem_map_of_mem hq)
  cases hq2 : q.2 with
  | none => rw [hq2] at hp; cases hp
  | some x =>
    rw [hq2] at hp
    cases hp
    constructor
    · intro hc
      have := congrArg String.toList hc
      simp [String.toList_append] at this
    · rw [String.toList_append, List.mem_append]
      rintro (h1 | h1)
      · revert h1
        decide +kernel
      · exact hk h1

/-! ## A block that enlarges -/

/-- The block is new and can create enlargement parameters, or it has some that fit (from an earlier pass, possibly trained). -/
inductive Prepared (F0 G0 F G : Fam) (w cw : String → Nat) (s : St α T Θ) : Prop
  | fresh : s.notYet = true → s.enlState = none → s.enlCostate = none → Prepared F0 G0 F G w cw s
  | used (n n' : String) (l m : SDict String (Enlarge.Entry α)) : s.notYet = false → s.enlState = some [(n, l)] → s.enlCostate = some [(n', m)] →
      Fitting F0 F w l → Fitting G0 G cw m → Prepared F0 G0 F G w cw s

/-- The class enlarges and its initializers create as many parameters as they are asked for; names can be registered. -/
structure Enlarges (cfg : Cfg α T Θ R) (F G : Fam) : Prop where
  on : cfg.enlarge = true
  dims : ∃ d, cfg.enlargementDims = some d
  keepZero : cfg.keepZero = false
  mkState : ∀ r dk k n, (cfg.mkState r dk k n).length = n
  mkCostate : ∀ r dk k n, (cfg.mkCostate r dk k n).length = n
  stateKeys : ∀ k ∈ F.keys, '.' ∉ k.toList
  costateKeys : ∀ k ∈ G.keys, '.' ∉ k.toList

theorem passThrough_enlarge [OfNat T 0] (X : Fams) (F0 G0 : Fam) (hF : Sub F0 X.F) (hG : Sub G0 X.G) (cfg : Cfg α T Θ R) (he : Enlarges cfg X.F X.G)
    (s : St α T Θ) (v cv : String → Nat) (hr : Able X cfg s v cv) (r : R) (n : String) (w cw : String → Nat)
    (hp : Prepared F0 G0 X.F X.G w cw s) (st ct : TDict α) (hst : Has F0 w st) (hct : Has G0 cw ct) :
    ∃ s' st' ct', passThrough cfg r (some [(n, st)]) (some [(n, ct)]) s = (s', .ok (some [(n, st')], some [(n, ct')])) ∧
      Has X.F w st' ∧ Has X.G cw ct' ∧ Able X cfg s' v cv ∧ Prepared F0 G0 X.F X.G w cw { s' with notYet := false } ∧
      (∀ k t, SDict.get? st k = some t → ∃ t' new, SDict.get? st' k = some t' ∧ Enlarge.Enlarged t t'.shape new t') ∧
      (∀ k t, SDict.get? ct k = some t → ∃ t' new, SDict.get? ct' k = some t' ∧ Enlarge.Enlarged t t'.shape new t') := by
  have hgoc : ∃ s' a b l m, getOrCreate cfg r [(n, st)] [(n, ct)] s = (s', .ok ()) ∧ s'.enlState = some [(a, l)] ∧ s'.enlCostate = some [(b, m)] ∧
      Fitting F0 X.F w l ∧ Fitting G0 X.G cw m ∧ Able X cfg s' v cv := by
    cases hp with
    | used a b l m h1 h2 h3 h4 h5 =>
      refine ⟨s, a, b, l, m, ?_, h2, h3, h4, h5, hr⟩
      unfold getOrCreate
      rw [if_neg (by rw [h1]; decide)]
    | fresh h1 h2 h3 =>
      obtain ⟨own, ho, hown⟩ := hr.own
      obtain ⟨cown, hco, hcown⟩ := hr.cown
      obtain ⟨dims, hd⟩ := he.dims
      obtain ⟨l, hl1, hl2⟩ := create_fitting X.goodF hF (cfg.mkState r) (he.mkState r) n st own w v hst hown dims
      obtain ⟨m, hm1, hm2⟩ := create_fitting X.goodG hG (cfg.mkCostate r) (he.mkCostate r) n ct cown cw cv hct hcown dims
      have valid : ∀ (F : Fam) (ref : String → String → Ref) (z : SDict String (Enlarge.Entry α)), SDict.keys z = F.keys → (∀ k ∈ F.keys, '.' ∉ k.toList) →
          ∀ p ∈ enlNames ref (some [(n, z)]), p.1 ≠ "" ∧ '.' ∉ p.1.toList := by
        intro F ref z hz hk
        apply enlNames_valid
        intro l' hl' b hb k hkk
        rw [← Option.some.inj hl', List.mem_singleton] at hb
        subst hb
        exact hk k (by rw [← hz]; exact hkk)
      obtain ⟨reg', hreg⟩ := registerAll_ok (enlNames .enlState (some [(n, l)]) ++ enlNames .enlCostate (some [(n, m)])) (by
        intro p hp
        rcases List.mem_append.1 hp with hp | hp
        · exact valid X.F _ l hl2.1 he.stateKeys p hp
        · exact valid X.G _ m hm2.1 he.costateKeys p hp) s.reg
      have hreg' : registerEnl cfg.keepZero (some [(n, l)]) (some [(n, m)]) s.reg = (reg', .ok ()) := by
        unfold registerEnl
        rw [if_neg (by rw [he.keepZero]; simp)]
        exact hreg
      have hex : enlExists s = false := by
        unfold enlExists
        rw [h2, h3]
        rfl
      refine ⟨{ s with reg := reg', enlState := some [(n, l)], enlCostate := some [(n, m)] }, n, n, l, m, ?_, rfl, rfl, hl2, hm2,
        ⟨hr.concat, hr.dim, hr.out, hr.own, hr.cown, hr.time⟩⟩
      unfold getOrCreate
      rw [if_pos h1, if_neg (by rw [hex]; decide), ho, hco, hd, hl1, hm1]
      simp only [bind, Except.bind]
      rw [hreg']
  obtain ⟨s', a, b, l, m, h1, h2, h3, h4, h5, h6⟩ := hgoc
  obtain ⟨st', g1, g2, g3⟩ := enlarge_fitting X.goodF hF n a st w hst l h4
  obtain ⟨ct', k1, k2, k3⟩ := enlarge_fitting X.goodG hG n b ct cw hct m h5
  refine ⟨s', st', ct', ?_, g2, k2, h6, .used a b l m rfl h2 h3 h4 h5, g3, k3⟩
  unfold passThrough
  dsimp only
  rw [if_pos he.on, h1]
  dsimp only
  rw [h2, h3, g1, k1]
  rfl

/-- C41: one link of a chain with enlargement.  States and costates of a smaller size are enlarged to the block's own size (with the
old values in the middle), the block works, channel numbers add up, and afterwards the block is again prepared for inputs of the same
sizes: this includes the first pass, in which the enlargement parameters are created, and all later ones. -/
theorem C41_enlarging_step [Zero α] [OfNat T 0] (X : Fams) (F0 G0 : Fam) (hF : Sub F0 X.F) (hG : Sub G0 X.G) (cfg : Cfg α T Θ R)
    (he : Enlarges cfg X.F X.G) (s : St α T Θ) (v cv : String → Nat) (hr : Able X cfg s v cv) (r : R) (n : String) (hn : n ≠ cfg.name)
    (w cw dw : String → Nat) (hp : Prepared F0 G0 X.F X.G w cw s) (st ct dt : TDict α) (hst : Has F0 w st) (hct : Has G0 cw ct) (hdt : Has X.H dw dt) :
    ∃ s' o, forward cfg r ⟨none, some [(n, st)], some [(n, ct)], some [(n, dt)]⟩ s = (s', .ok o) ∧
      GoodLink X cfg n (fun k => v k + w k) (fun k => cv k + cw k) (fun k => v k + dw k) s' o ∧
      Able X cfg s' v cv ∧ Prepared F0 G0 X.F X.G w cw s' ∧ s'.notYet = false := by
  obtain ⟨s1, st', ct', h1, h2, h3, h4, h5, _⟩ := passThrough_enlarge X F0 G0 hF hG cfg he s v cv hr r n w cw hp st ct hst hct
  obtain ⟨s', o, g1, g2, g3⟩ := step_core X cfg s s1 v cv h4 r n hn w cw dw [(n, st)] [(n, ct)] [(n, st')] [(n, ct')] [(n, dt)]
    ⟨st', ct', dt, rfl, rfl, rfl, h2, h3, hdt⟩ h1
  refine ⟨s', o, g1, g3, ?_, ?_, by rw [g2]⟩
  · rw [g2]
    exact ⟨h4.concat, h4.dim, h4.out, h4.own, h4.cown, h4.time⟩
  · rw [g2]
    cases h5 with
    | fresh a => cases a
    | used a b l m x1 x2 x3 x4 x5 => exact .used a b l m rfl x2 x3 x4 x5

/-! ## Optimiser steps -/

theorem has_train {F : Fam} {w : String → Nat} {d : TDict α} (h : Has F w d) (g : String → List α → List α) (hg : ∀ k l, (g k l).length = l.length) :
    Has F w (d.map fun p => (p.1, { p.2 with data := g p.1 p.2.data })) := by
  have hk : SDict.keys (d.map fun p => (p.1, ({ p.2 with data := g p.1 p.2.data } : Tensor α))) = SDict.keys d := by
    simp [SDict.keys, Function.comp_def]
  refine ⟨sorted_of_keys hk h.sorted, hk.trans h.keys, ?_⟩
  intro p hp
  obtain ⟨q, hq, rfl⟩ := List.mem_map.1 hp
  obtain ⟨h1, h2⟩ := h.shape q hq
  exact ⟨(hg _ _).trans h1, h2⟩

theorem fitting_train {F0 F : Fam} {w : String → Nat} {l : SDict String (Enlarge.Entry α)} (h : Fitting F0 F w l) (g : String → List α → List α)
    (hg : ∀ k l, (g k l).length = l.length) : Fitting F0 F w (l.map fun p => (p.1, p.2.map fun e => (g p.1 e.1, e.2))) := by
  refine ⟨?_, ?_⟩
  · rw [← h.1]
    simp [SDict.keys, Function.comp_def]
  · intro p hp
    obtain ⟨q, hq, rfl⟩ := List.mem_map.1 hp
    have := h.2 q hq
    cases hq2 : q.2 with
    | none => rw [hq2] at this; exact this
    | some e =>
      rw [hq2] at this
      exact ⟨(hg _ _).trans this.1, this.2⟩

theorem newValues_length (f : Ref → List α → List α) (reg : PDict String Ref) (r : Ref) (l : List α) : (newValues f reg r l).length = l.length := by
  unfold newValues
  split
  · next h => exact h.2
  · rfl

/-- C41: optimiser steps keep a block able to work. -/
theorem C41_trained [OfNat T 0] (X : Fams) (F0 G0 : Fam) (cfg : Cfg α T Θ R) (s : St α T Θ) (v cv w cw : String → Nat) (hr : Able X cfg s v cv)
    (hp : Prepared F0 G0 X.F X.G w cw s) (f : Ref → List α → List α) (g : Θ → Θ) :
    Able X cfg (train f g s) v cv ∧ Prepared F0 G0 X.F X.G w cw (train f g s) := by
  obtain ⟨own, ho, hown⟩ := hr.own
  obtain ⟨cown, hco, hcown⟩ := hr.cown
  constructor
  · refine ⟨hr.concat, hr.dim, hr.out, ⟨_, ?_, has_train hown (fun k => newValues f s.reg (.state k)) fun _ _ => newValues_length _ _ _ _⟩,
      ⟨_, ?_, has_train hcown (fun k => newValues f s.reg (.costate k)) fun _ _ => newValues_length _ _ _ _⟩, hr.time⟩
    · show s.state.map _ = _
      rw [ho]
      rfl
    · show s.costate.map _ = _
      rw [hco]
      rfl
  · cases hp with
    | fresh h1 h2 h3 =>
      refine .fresh h1 ?_ ?_
      · show s.enlState.map _ = _
        rw [h2]
        rfl
      · show s.enlCostate.map _ = _
        rw [h3]
        rfl
    | used a b l m h1 h2 h3 h4 h5 =>
      refine .used a b _ _ h1 (?_ : s.enlState.map _ = _) (?_ : s.enlCostate.map _ = _)
        (fitting_train h4 (fun k => newValues f s.reg (.enlState a k)) fun _ _ => newValues_length _ _ _ _)
        (fitting_train h5 (fun k => newValues f s.reg (.enlCostate b k)) fun _ _ => newValues_length _ _ _ _)
      · rw [h2]
        rfl
      · rw [h3]
        rfl

/-! ## Blocks without own state -/

/-- A block without own state and costate (`is_pass_through=True`). -/
structure Relay (X : Fams) [OfNat T 0] (cfg : Cfg α T Θ R) (s : St α T Θ) : Prop where
  concat : cfg.concatenate = true
  out : cfg.outKey ∈ X.H.keys
  own : s.state = none
  cown : s.costate = none
  enl : s.enlState = none
  cenl : s.enlCostate = none
  time : Solves cfg s

/-- C41: a block without own state integrates what is passed through, and passes it on under its own name,
with the same sizes. -/
theorem C41_relay [Zero α] [OfNat T 0] (X : Fams) (cfg : Cfg α T Θ R) (s : St α T Θ) (hr : Relay X cfg s) (r : R) (n : String) (hn : n ≠ cfg.name)
    (w cw dw : String → Nat) (S C D : TDicts α) (hX : Carried X n w cw dw S C D) :
    ∃ s' o, forward cfg r ⟨none, some S, some C, some D⟩ s = (s', .ok o) ∧ s' = { s with notYet := false } ∧
      Carried X cfg.name w cw dw o.state o.costate o.data ∧
      (∃ t, o.result = .tensor t ∧ Dicts.lookup o.data cfg.name cfg.outKey = some t) ∧ Relay X cfg s' := by
  obtain ⟨st, ct, dt, rfl, rfl, rfl, hst, hct, hdt⟩ := hX
  have one : ∀ {F : Fam} {a : String → Nat} {y : TDict α}, Has F a y → ∀ b ∈ [(n, y)], Has F ((fun _ => a) b.1) b.2 := by
    intro F a y hy b hb
    rw [List.mem_singleton] at hb
    subst hb
    exact hy
  obtain ⟨x0, plans, ha, hint⟩ := integrate_has X cfg s hr.time [(n, st)] [(n, ct)] [(n, dt)] (fun _ => w) (fun _ => cw)
    (fun _ => dw) (by simp [SDict.Sorted]) (by simp [SDict.Sorted]) (by simp [SDict.Sorted]) (by simp) (by simp) (by simp) (one hst) (one hct) (one hdt)
  obtain ⟨Si, Ci, Di, hi, ⟨k1, g1⟩, ⟨k2, g2⟩, ⟨k3, g3⟩⟩ := hint s rfl rfl
  have single : ∀ {Z : TDicts α} {y : TDict α}, SDict.keys Z = SDict.keys [(n, y)] → ∃ z, Z = [(n, z)] := by
    intro Z y hZ
    rcases Z with _ | ⟨a, _ | ⟨b, Z⟩⟩
    · cases hZ
    · have : [a.1] = [n] := hZ
      refine ⟨a.2, ?_⟩
      rw [← List.singleton_inj.1 this]
    · have := congrArg List.length hZ
      simp [SDict.keys] at this
  obtain ⟨so, rfl⟩ := single k1
  obtain ⟨co, rfl⟩ := single k2
  obtain ⟨dd, rfl⟩ := single k3
  have f1 := g1 _ (List.mem_singleton.2 rfl)
  have f2 := g2 _ (List.mem_singleton.2 rfl)
  have f3 := g3 _ (List.mem_singleton.2 rfl)
  obtain ⟨t, ht, _⟩ := get?_of_has f3 cfg.outKey hr.out
  have hm : ∀ y : TDict α, SDict.Sorted y → Dicts.merge none (some [(n, y)]) cfg.name = .ok [(n, y)] := by
    intro y hy
    have : Dicts.copyDict y = y := SDict.foldl_set_eq hy
    have h1 : SDict.has [(n, y)] cfg.name = false := by
      rw [SDict.has_eq_false_iff]
      simpa using fun hc => hn hc.symm
    unfold Dicts.merge
    simp only [h1, Bool.false_eq_true, if_false]
    show Except.ok (SDict.set [] n (Dicts.copyDict y)) = _
    rw [this]
    rfl
  have hinit : initial cfg [(n, dt)] (some [(n, st)]) (some [(n, ct)]) true s = (s, .ok (x0, plans)) := by
    unfold initial
    rw [hr.own, hr.cown, hm _ hst.sorted, hm _ hct.sorted]
    dsimp only
    have : padData cfg [(n, dt)] true s = (s, .ok [(n, dt)]) := by
      unfold padData
      rw [hr.own]
    rw [this]
    exact congrArg (Prod.mk s) ha
  have hfin : finish cfg s.dataDim ([(n, so)], [(n, co)], [(n, dd)]) =
      .ok ⟨.tensor t, [(cfg.name, so)], [(cfg.name, co)], [(cfg.name, dd)]⟩ := by
    have hex := Dicts.C50_single_block n cfg.outKey dd
    rw [ht] at hex
    unfold finish
    dsimp only
    rw [hex]
    simp only [bind, Except.bind, hr.concat, if_true]
    unfold Concat.concatNamed
    rw [concat_single _ f1.sorted, concat_single _ f2.sorted, concat_single _ f3.sorted]
    rfl
  have hpt : passThrough cfg r (some [(n, st)]) (some [(n, ct)]) s = (s, .ok (some [(n, st)], some [(n, ct)])) := by
    have hg : getOrCreate cfg r [(n, st)] [(n, ct)] s = (s, .ok ()) := by
      unfold getOrCreate
      have h1 := hr.own
      have h2 := hr.cown
      have h3 := hr.enl
      have h4 := hr.cenl
      cases s with
      | mk notYet time tv st co es ec reg dd th =>
        dsimp only at h1 h2 h3 h4
        subst h1 h2 h3 h4
        cases notYet
        · rfl
        · simp [enlExists, Enlarge.create, bind, Except.bind, registerEnl, enlNames, registerAll]
    unfold passThrough
    dsimp only
    rw [hg]
    dsimp only
    rw [hr.enl, hr.cenl]
    split <;> rfl
  exact ⟨_, _, forward_eq cfg r ⟨none, some _, some _, some _⟩ s s s _ _ _ true x0 plans _ _ rfl hpt rfl hinit hi hfin, rfl,
    ⟨so, co, dd, rfl, rfl, rfl, f1, f2, f3⟩, ⟨t, rfl, by simp [Dicts.lookup, SDict.get?, ht]⟩, ⟨hr.concat, hr.out, hr.own, hr.cown, hr.enl, hr.cenl, hr.time⟩⟩

/-! ## Examples -/

/-- Images with one channel of particles: the particles have 3 pixels, the data 4. -/
def imageFams (p : Nat) : Fams where
  F := ⟨1, ["q1"], fun _ => [1, 1, p]⟩
  G := ⟨1, ["p_q1"], fun _ => [1, 1, p]⟩
  H := ⟨1, ["q1"], fun _ => [1, 1, 4]⟩
  db := [1, 1, 4]
  goodF := ⟨by simp, by simp, by simp⟩
  goodG := ⟨by simp, by simp, by simp⟩
  goodH := ⟨by simp, by simp, by simp⟩
  sameDim := rfl
  keys := rfl
  base := rfl
  rank := by simp

/-- A block of a convolutional class. -/
def imageCfg (name : String) : Cfg ℤ ℤ Unit Unit := { demo name true with concatDim := 1, enlargementDims := some [2] }

/-- ... with particles of `c` channels and `p` pixels. -/
def imageBlock (c p : Nat) : St ℤ ℤ Unit :=
  { demoBlock 1 with state := some [("q1", ⟨[1, c, p], List.replicate (c * p) 5⟩)], costate := some [("p_q1", ⟨[1, c, p], List.replicate (c * p) 6⟩)] }

theorem image_sub (p : Nat) (hp : p ≤ 3) : Sub (imageFams p).F (imageFams 3).F ∧ Sub (imageFams p).G (imageFams 3).G := by
  have key : ∀ c i x y : Nat, (([1, 1, p] : List Nat).set 1 c)[i]? = some x → (([1, 1, 3] : List Nat).set 1 c)[i]? = some y → x ≤ y := by
    intro c i x y h1 h2
    match i with
    | 0 => cases h1; cases h2; exact le_rfl
    | 1 => cases h1; cases h2; exact le_rfl
    | 2 => cases h1; cases h2; exact hp
    | i + 3 => cases h1
  exact ⟨⟨rfl, rfl, rfl, fun k _ c => ⟨by simp [imageFams], fun i x y => key c i x y⟩⟩,
    ⟨rfl, rfl, rfl, fun k _ c => ⟨by simp [imageFams], fun i x y => key c i x y⟩⟩⟩

theorem image_able (name : String) (c p : Nat) : Able (imageFams p) (imageCfg name) (imageBlock c p) (fun _ => c) (fun _ => c) where
  concat := rfl
  dim := rfl
  out := by simp [imageFams, imageCfg, demo]
  own := ⟨_, rfl, by simp [SDict.Sorted], rfl, by simp [imageFams, Tensor.WF, vol]⟩
  cown := ⟨_, rfl, by simp [SDict.Sorted], rfl, by simp [imageFams, Tensor.WF, vol]⟩
  time := ⟨1, ⟨rfl, rfl⟩, fun _ _ _ x0 => ⟨_, _, rfl, rfl, by simp⟩⟩

theorem image_enlarges (name : String) (p : Nat) : Enlarges (imageCfg name) (imageFams p).F (imageFams p).G where
  on := rfl
  dims := ⟨_, rfl⟩
  keepZero := rfl
  mkState := by intros; simp [imageCfg, demo]
  mkCostate := by intros; simp [imageCfg, demo]
  stateKeys := by
    intro k hk
    rw [show (imageFams p).F.keys = ["q1"] from rfl, List.mem_singleton] at hk
    subst hk
    decide +kernel
  costateKeys := by
    intro k hk
    rw [show (imageFams p).G.keys = ["p_q1"] from rfl, List.mem_singleton] at hk
    subst hk
    decide +kernel

example : Prepared (imageFams 2).F (imageFams 2).G (imageFams 3).F (imageFams 3).G (fun _ => 1) (fun _ => 1) (imageBlock 1 3) := .fresh rfl rfl rfl

/-- Particles of one channel and two pixels reach a block with two channels of three pixels. -/
example : ∃ o, (forward (imageCfg "b") () ⟨none, some [("a", [("q1", ⟨[1, 1, 2], [1, 2]⟩)])], some [("a", [("p_q1", ⟨[1, 1, 2], [3, 4]⟩)])],
      some [("a", [("q1", ⟨[1, 1, 4], [7, 8, 9, 10]⟩)])]⟩ (imageBlock 2 3)).2 = .ok o ∧
    o.state.map (fun b => (b.1, b.2.map fun p => p.2.shape)) = [("b", [[1, 3, 3]])] ∧
    o.data.map (fun b => (b.1, b.2.map fun p => p.2.shape)) = [("b", [[1, 3, 4]])] := ⟨_, rfl, rfl, rfl⟩

example : Relay (imageFams 3) (imageCfg "c") { imageBlock 1 3 with state := none, costate := none } where
  concat := rfl
  out := by simp [imageFams, imageCfg, demo]
  own := rfl
  cown := rfl
  enl := rfl
  cenl := rfl
  time := ⟨1, ⟨rfl, rfl⟩, fun _ _ _ x0 => ⟨_, _, rfl, rfl, by simp⟩⟩

end Verif.Block
