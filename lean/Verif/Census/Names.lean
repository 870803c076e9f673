import Verif.Census.Blocks

/-!
# Names and sizes of the parameters of one block
-/

namespace Verif.Census
open Verif Block ResNet Tensor

variable {α T Θ R β : Type}

/-- Names of states that can be registered together with those of the costates and of the enlargement parameters. -/
structure Names (keys : List String) : Prop where
  sorted : keys.Pairwise (· < ·)
  ne : keys ≠ []
  plain : ∀ k ∈ keys, k ≠ "" ∧ '.' ∉ k.toList
  distinct : (keys ++ keys.map ("p_" ++ ·) ++ (keys.map ("pt_enlarge_" ++ ·) ++ (keys.map ("p_" ++ ·)).map ("pt_enlarge_" ++ ·))).Nodup

/-- The states and costates of a block. -/
def ownReg (keys : List String) : PDict String Ref := (keys.map fun k => (k, Ref.state k)) ++ (keys.map ("p_" ++ ·)).map fun k => (k, Ref.costate k)

theorem keys_ownReg (keys : List String) : PDict.keys (ownReg keys) = keys ++ keys.map ("p_" ++ ·) := by
  simp [ownReg, PDict.keys, Function.comp_def]

theorem registerAll_append (l : List (String × Ref)) (reg : PDict String Ref) (hv : ∀ p ∈ l, p.1 ≠ "" ∧ '.' ∉ p.1.toList)
    (hd : (PDict.keys reg ++ l.map Prod.fst).Nodup) : registerAll reg l = (reg ++ l, .ok ()) := by
  induction l generalizing reg with
  | nil => simp [registerAll]
  | cons p l ih =>
    have hp := hv p (by simp)
    have hnot : p.1 ∉ PDict.keys reg := by
      intro hm
      rw [List.nodup_append] at hd
      exact hd.2.2 _ hm p.1 (by simp) rfl
    have : register reg p.1 p.2 = .ok (reg ++ [p]) := by
      unfold register
      rw [if_neg (by rintro (h1 | h1); exacts [hp.1 h1, hp.2 h1]), PDict.set_of_not_mem hnot]
    unfold registerAll
    rw [this]
    dsimp only
    rw [ih _ (fun q hq => hv q (List.mem_cons_of_mem _ hq)) (by
      rw [PDict.keys_append]
      simpa [List.append_assoc] using hd)]
    simp

theorem foldlM_register_append (l : List (String × Ref)) (reg : PDict String Ref) (hv : ∀ p ∈ l, p.1 ≠ "" ∧ '.' ∉ p.1.toList)
    (hd : (PDict.keys reg ++ l.map Prod.fst).Nodup) : l.foldlM (fun reg p => register reg p.1 p.2) reg = (.ok (reg ++ l) : Py _) := by
  induction l generalizing reg with
  | nil => simp [pure, Except.pure]
  | cons p l ih =>
    have hp := hv p (by simp)
    have hnot : p.1 ∉ PDict.keys reg := by
      intro hm
      rw [List.nodup_append] at hd
      exact hd.2.2 _ hm p.1 (by simp) rfl
    have : register reg p.1 p.2 = .ok (reg ++ [p]) := by
      unfold register
      rw [if_neg (by rintro (h1 | h1); exacts [hp.1 h1, hp.2 h1]), PDict.set_of_not_mem hnot]
    rw [List.foldlM_cons, this]
    show List.foldlM _ _ _ = _
    rw [ih _ (fun q hq => hv q (List.mem_cons_of_mem _ hq)) (by
      rw [PDict.keys_append]
      simpa [List.append_assoc] using hd)]
    simp

theorem plain_prefix (pre : String) (hpre : pre ≠ "" ∧ '.' ∉ pre.toList) (k : String) (hk : '.' ∉ k.toList) : pre ++ k ≠ "" ∧ '.' ∉ (pre ++ k).toList := by
  constructor
  · intro hc
    have := congrArg String.toList hc
    rw [String.toList_append] at this
    have h1 : pre.toList = [] := (List.append_eq_nil_iff.1 this).1
    exact hpre.1 (String.toList_inj.1 h1)
  · rw [String.toList_append, List.mem_append]
    rintro (h | h)
    · exact hpre.2 h
    · exact hk h

theorem plain_p {keys : List String} (h : Names keys) : ∀ k ∈ keys.map ("p_" ++ ·), k ≠ "" ∧ '.' ∉ k.toList := by
  intro k hk
  obtain ⟨k0, h0, rfl⟩ := List.mem_map.1 hk
  exact plain_prefix "p_" (by decide +kernel) _ (h.plain k0 h0).2

/-- The costates of a block. -/
theorem costateOf_eq (like : Tensor α → Tensor α) (d : TDict α) (hd : SDict.Sorted d) :
    costateOf like (some d) = some (d.map fun p => ("p_" ++ p.1, like p.2)) := by
  unfold costateOf
  rw [Option.map_some]
  congr 1
  have hs : SDict.Sorted (d.map fun p => ("p_" ++ p.1, like p.2)) := by
    unfold SDict.Sorted SDict.keys at hd ⊢
    rw [List.pairwise_map] at hd
    rw [List.map_map, List.pairwise_map]
    exact hd.imp fun h => (SDict.prefix_lt_prefix_iff _ _ _).2 h
  have := SDict.foldl_set_eq hs
  rw [List.foldl_map] at this
  exact this

theorem keys_sorted {V : Type} {d : SDict String V} {keys : List String} (h : Names keys) (hk : SDict.keys d = keys) : SDict.Sorted d := by
  unfold SDict.Sorted
  rw [hk]
  exact h.sorted

/-- A new block with states `keys`. -/
theorem construct_own [OfNat T 0] [OfNat T 1] {keys : List String} (hk : Names keys) (cfg : Cfg α T Θ R) (hz : cfg.keepZero = false) (a : Args α T) (th : Θ)
    (s : St α T Θ) (h : Block.construct cfg a th = .ok s) (h1 : a.freeRnn = false) (h2 : a.freeTime = false) (h3 : a.integrandNames = []) (d : TDict α)
    (hd : a.state = some d) (hkd : SDict.keys d = keys) :
    s.reg = ownReg keys ∧ s.state = some d ∧ s.costate = some (d.map fun p => ("p_" ++ p.1, a.like p.2)) ∧
      s.notYet = true ∧ s.enlState = none ∧ s.enlCostate = none ∧ Is s (.upTo (a.maxTime.getD 1)) := by
  obtain ⟨k1, k2, reg, k3, k4⟩ := construct_ok h
  rw [h3] at k4
  cases k4
  rw [h1, h2] at k3
  simp only [Bool.or_self, Bool.false_eq_true, if_false] at k3
  have hcs := costateOf_eq a.like d (keys_sorted hk hkd)
  rw [hd] at k1 k2 k3
  rw [hcs] at k2 k3
  have hck : SDict.keys (d.map fun p => ("p_" ++ p.1, a.like p.2)) = keys.map ("p_" ++ ·) := by
    rw [← hkd]
    simp [SDict.keys, Function.comp_def]
  have hdist : (keys ++ keys.map ("p_" ++ ·)).Nodup := (List.nodup_append.1 hk.distinct).1
  have hreg : registerOwn false [] (some d) (some (d.map fun p => ("p_" ++ p.1, a.like p.2))) = .ok (ownReg keys) := by
    unfold registerOwn
    simp only [Option.getD_some, Bool.false_eq_true, if_false, hkd, hck]
    rw [foldlM_register_append _ [] (by
      intro p hp
      obtain ⟨k, hk', rfl⟩ := List.mem_map.1 hp
      exact hk.plain k hk') (by
      simpa [Function.comp_def] using (List.nodup_append.1 hdist).1)]
    simp only [bind, Except.bind, List.nil_append]
    rw [foldlM_register_append _ _ (by
      intro p hp
      obtain ⟨k, hk', rfl⟩ := List.mem_map.1 hp
      exact plain_p hk k hk') (by
      simpa [PDict.keys, Function.comp_def] using hdist)]
    rfl
  rw [hz] at k3
  have hs := k3.symm.trans hreg
  refine ⟨Except.ok.inj hs, k1, k2, ?_⟩
  clear hs k1 k2 k3
  unfold Block.construct at h
  simp only [h1, h2] at h
  split at h
  · cases h
  split at h
  · cases h
  split at h
  · cases h
  simp only [Bool.false_eq_true, false_and, if_false, Bool.or_self, hd, hcs, hz, hreg, h3, bind, Except.bind, List.map_nil, List.foldlM_nil, pure, Except.pure] at h
  cases h
  exact ⟨rfl, rfl, rfl, rfl, rfl⟩

/-- A new block without particles of its own. -/
theorem construct_none [OfNat T 0] [OfNat T 1] (cfg : Cfg α T Θ R) (a : Args α T) (th : Θ)
    (s : St α T Θ) (h : Block.construct cfg a th = .ok s) (h1 : a.freeRnn = false) (h2 : a.freeTime = false) (h3 : a.integrandNames = []) (hd : a.state = none) :
    s.reg = [] ∧ s.state = none ∧ s.costate = none ∧ s.notYet = true ∧ s.enlState = none ∧ s.enlCostate = none ∧ Is s (.upTo (a.maxTime.getD 1)) := by
  unfold Block.construct at h
  simp only [h1, h2] at h
  split at h
  · cases h
  split at h
  · cases h
  split at h
  · cases h
  have hreg : registerOwn (α := α) cfg.keepZero [] none none = .ok [] := by
    unfold registerOwn
    cases cfg.keepZero <;> rfl
  simp only [Bool.false_eq_true, false_and, if_false, Bool.or_self, hd, costateOf, Option.map_none, hreg, h3, bind, Except.bind, List.map_nil, List.foldlM_nil, pure, Except.pure] at h
  cases h
  exact ⟨rfl, rfl, rfl, rfl, rfl, rfl, rfl, rfl⟩

/-! ## Sizes -/

theorem numel_own {keys : List String} (d : TDict α) (N : Nat) (hkd : SDict.keys d = keys) (hN : ∀ p ∈ d, p.2.data.length = N) (k : String) (hk : k ∈ keys) :
    ((some d).bind fun d => SDict.get? d k).map (fun t => t.data.length) = some N := by
  cases hg : SDict.get? d k with
  | none => exact absurd (by rw [hkd]; exact hk) (SDict.get?_eq_none_iff.1 hg)
  | some t =>
    simp only [Option.bind_some, hg, Option.map_some, Option.some.injEq]
    exact hN _ (SDict.mem_of_get?_eq_some hg)

/-- Number of values in a volume of particles, split into its factors. -/
theorem vol4 (a b c d : Nat) : vol [a, b, c, d] = a * b * c * d := by
  simp [vol, Nat.mul_assoc]

/-- The states and costates of a block, under their names. -/
theorem own_named {keys : List String} (name : String) (s : St α T Θ) (d c : TDict α) (N : Nat) (hs : s.state = some d) (hc : s.costate = some c)
    (hkd : SDict.keys d = keys) (hkc : SDict.keys c = keys.map ("p_" ++ ·)) (hN : ∀ p ∈ d, p.2.data.length = N) (hN' : ∀ p ∈ c, p.2.data.length = N) :
    (ownReg keys).map (fun p => (name ++ "." ++ p.1, numel s p.2)) = (own keys name N).map fun p => (p.1, some p.2) := by
  unfold ownReg own
  rw [List.map_append, List.map_append, List.map_map, List.map_map, List.map_map, List.map_map, List.map_map]
  congr 1
  · apply List.map_congr_left
    intro k hk
    dsimp only [Function.comp, numel]
    rw [hs, numel_own d N hkd hN k hk]
  · apply List.map_congr_left
    intro k hk
    dsimp only [Function.comp, numel]
    rw [hc, numel_own c N hkc hN' ("p_" ++ k) (List.mem_map_of_mem hk), ← String.append_assoc]

/-- Enlargement parameters where something grows. -/
theorem margin_part {F0 F : Fam} {w : String → Nat} (ref : String → String → Ref) (b : String) (l : SDict String (Enlarge.Entry α)) (hl : Fitting F0 F w l)
    (hs : F.keys.Nodup) (cur tgt : List Nat) (hcur : ∀ k ∈ F.keys, (F0.base k).set 1 (w k) = cur) (htgt : ∀ k ∈ F.keys, (F.base k).set 1 (w k) = tgt)
    (hne : cur ≠ tgt) :
    enlNames ref (some [(b, l)]) = F.keys.map (fun k => ("pt_enlarge_" ++ k, ref b k)) ∧
      ∀ k ∈ F.keys, ((SDict.get? [(b, l)] b).bind fun d => SDict.get? d k).bind (fun e : Enlarge.Entry α => e.map fun x => x.1.length) = some (vol tgt - vol cur) := by
  have hent : ∀ p ∈ l, ∃ x, p.2 = some x ∧ x.1.length = vol tgt - vol cur := by
    intro p hp
    have hk : p.1 ∈ F.keys := by rw [← hl.1]; exact List.mem_map_of_mem hp
    have h := hl.2 p hp
    rw [hcur _ hk, htgt _ hk] at h
    cases hq : p.2 with
    | none => rw [hq] at h; exact absurd h hne
    | some x =>
      rw [hq] at h
      exact ⟨x, rfl, h.1⟩
  constructor
  · unfold enlNames
    simp only [Option.getD_some, List.flatMap_cons, List.flatMap_nil, List.append_nil]
    rw [← hl.1]
    unfold SDict.keys
    rw [List.map_map]
    generalize l = l' at hent
    induction l' with
    | nil => rfl
    | cons p l' ih =>
      obtain ⟨x, hx, _⟩ := hent p (by simp)
      rw [List.filterMap_cons, hx]
      simp only [Option.map_some, List.map_cons, Function.comp]
      rw [ih fun q hq => hent q (List.mem_cons_of_mem _ hq)]
  · intro k hk
    rw [show SDict.get? [(b, l)] b = some l by simp [SDict.get?], Option.bind_some]
    cases hg : SDict.get? l k with
    | none => exact absurd (by rw [hl.1]; exact hk) (SDict.get?_eq_none_iff.1 hg)
    | some e =>
      obtain ⟨x, hx, hx2⟩ := hent _ (SDict.mem_of_get?_eq_some hg)
      dsimp only at hx
      rw [Option.bind_some, hx, Option.map_some, hx2]

/-- ... and nothing where all sizes agree. -/
theorem margin_none {F0 F : Fam} {w : String → Nat} (ref : String → String → Ref) (b : String) (l : SDict String (Enlarge.Entry α)) (hl : Fitting F0 F w l)
    (hp : Proper (some [(b, l)])) (cur : List Nat) (hcur : ∀ k ∈ F.keys, (F0.base k).set 1 (w k) = cur) (htgt : ∀ k ∈ F.keys, (F.base k).set 1 (w k) = cur) :
    enlNames ref (some [(b, l)]) = [] := by
  unfold enlNames
  simp only [Option.getD_some, List.flatMap_cons, List.flatMap_nil, List.append_nil]
  rw [List.filterMap_eq_nil_iff]
  intro p hpl
  have hk : p.1 ∈ F.keys := by rw [← hl.1]; exact List.mem_map_of_mem hpl
  have h := hl.2 p hpl
  rw [hcur _ hk, htgt _ hk] at h
  cases hq : p.2 with
  | none => rfl
  | some x =>
    rw [hq] at h
    have h1 := hp _ rfl _ (List.mem_singleton.2 rfl) p hpl x hq
    rw [h.2] at h1
    exfalso
    rw [List.any_eq_true] at h1
    obtain ⟨y, hy, hy2⟩ := h1
    have hz : y = 0 := by
      have : ∀ (c : List Nat) (y : Int), y ∈ List.zipWith (fun (c n : Nat) => (n : Int) - (c : Int)) c c → y = 0 := by
        intro c
        induction c with
        | nil => intro y hy; cases hy
        | cons a c ih =>
          intro y hy
          rw [List.zipWith_cons_cons] at hy
          rcases List.mem_cons.1 hy with rfl | hy
          · omega
          · exact ih y hy
      exact this cur y hy
    subst hz
    simp at hy2

end Verif.Census
