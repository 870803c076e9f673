import Verif.ResNet.Spec
import Std.Data.String.ToNat

namespace Verif.ResNet
open Verif Block

variable {α T Θ R β : Type}

/-! ## Names -/

theorem toList_showNat (n : Nat) : (showNat n).toList = Nat.toDigits 10 n := by
  unfold showNat
  show (Nat.repr n).toList = _
  exact Nat.toList_repr

theorem showNat_injective {m n : Nat} (h : showNat m = showNat n) : m = n := Nat.repr_injective h

theorem split_unique {a b c d : List Char} (ha : '_' ∉ a) (hc : '_' ∉ c) (h : a ++ '_' :: b = c ++ '_' :: d) : a = c ∧ b = d := by
  induction a generalizing c with
  | nil =>
    cases c with
    | nil => simpa using h
    | cons y c => simp only [List.nil_append, List.cons_append, List.cons.injEq] at h; exact absurd (by simp [← h.1]) hc
  | cons x a ih =>
    cases c with
    | nil => simp only [List.nil_append, List.cons_append, List.cons.injEq] at h; exact absurd (by simp [h.1]) ha
    | cons y c =>
      simp only [List.cons_append, List.cons.injEq] at h
      obtain ⟨h1, h2⟩ := ih (fun hm => ha (List.mem_cons_of_mem _ hm)) (fun hm => hc (List.mem_cons_of_mem _ hm)) h.2
      exact ⟨by rw [h.1, h1], h2⟩

theorem blockName_injective {i j b c : Nat} (h : blockName i b = blockName j c) : i = j ∧ b = c := by
  have h' := congrArg String.toList h
  unfold blockName at h'
  simp only [String.toList_append, List.append_assoc] at h'
  have h1 := List.append_cancel_left (List.append_cancel_left h')
  have hu : "_".toList = ['_'] := by decide +kernel
  rw [hu] at h1
  simp only [List.singleton_append] at h1
  obtain ⟨h2, h3⟩ := split_unique (by rw [toList_showNat]; exact Nat.underscore_not_in_toDigits) (by rw [toList_showNat]; exact Nat.underscore_not_in_toDigits) h1
  exact ⟨showNat_injective (String.toList_inj.1 h2), showNat_injective (String.toList_inj.1 h3)⟩

/-! ## Layers -/

theorem additionalFrom_length (p : Int) (cs : List Nat) : (additionalFrom p cs).length = cs.length := by
  induction cs generalizing p with
  | nil => rfl
  | cons c cs ih => simp [additionalFrom, ih]

theorem additional_length (cs : List Nat) : (additional cs).length = cs.length := by
  cases cs with
  | nil => rfl
  | cons c cs => simp [additional, additionalFrom_length]

theorem additionalFrom_sum (p : Int) (cs : List Nat) (i : Nat) (c : Nat) (h : cs[i]? = some c) :
    p + ((additionalFrom p cs).take (i + 1)).sum = (c : Int) := by
  induction cs generalizing p i with
  | nil => cases h
  | cons c' cs ih =>
    cases i with
    | zero =>
      simp only [List.getElem?_cons_zero, Option.some.injEq] at h
      subst h
      simp [additionalFrom]
    | succ i =>
      have := ih c' i h
      simp only [additionalFrom, List.take_succ_cons, List.sum_cons] at this ⊢
      omega

theorem createLayersFrom_ok (blocks : List Nat) (sizes : List (List Nat)) (dims : List Int) (i : Nat) (cs : List Nat)
    (hb : i + cs.length ≤ blocks.length) (hs : i + cs.length ≤ sizes.length) (hd : i + cs.length ≤ dims.length) :
    createLayersFrom blocks sizes dims i cs =
      .ok (cs.zipIdx i |>.map fun c => createLayer c.2 c.1 (blocks.getD c.2 0) (sizes.getD c.2 []) (dims.getD c.2 0)) := by
  induction cs generalizing i with
  | nil => rfl
  | cons c cs ih =>
    simp only [List.length_cons] at hb hs hd
    have h1 := ih (i + 1) (by omega) (by omega) (by omega)
    have hb' : i < blocks.length := by omega
    have hs' : i < sizes.length := by omega
    have hd' : i < dims.length := by omega
    unfold createLayersFrom
    rw [List.getElem?_eq_getElem hb', List.getElem?_eq_getElem hs', List.getElem?_eq_getElem hd', h1]
    rw [List.zipIdx_cons, List.map_cons]
    have e1 : blocks.getD i 0 = blocks[i] := by simp [List.getD, hb']
    have e2 : sizes.getD i [] = sizes[i] := by simp [List.getD, hs']
    have e3 : dims.getD i 0 = dims[i] := by simp [List.getD, hd']
    dsimp only
    rw [e1, e2, e3]
    cases blocks[i] with
    | zero => rfl
    | succ n => rfl

theorem createLayersFrom_short (blocks : List Nat) (sizes : List (List Nat)) (dims : List Int) (i : Nat) (cs : List Nat)
    (hb : blocks.length < i + cs.length) (hi : i ≤ blocks.length) : createLayersFrom blocks sizes dims i cs = .error .indexError := by
  induction cs generalizing i with
  | nil => simp only [List.length_nil] at hb; omega
  | cons c cs ih =>
    simp only [List.length_cons] at hb
    unfold createLayersFrom
    by_cases h : i < blocks.length
    · rw [List.getElem?_eq_getElem h, ih (i + 1) (by omega) (by omega)]
      cases blocks[i] with
      | zero => rfl
      | succ n =>
        dsimp only
        split <;> rfl
    · rw [List.getElem?_eq_none (by omega)]

/-! ## Data flow -/

section Flow
variable [Zero α]

omit [Zero α] in
theorem stages_cons (bs : List (Cfg α T Θ R × St α T Θ)) (p : Option Striding.Block) (l : List (List (Cfg α T Θ R × St α T Θ)))
    (ps : List (Option Striding.Block)) : stages (bs :: l) (p :: ps) = bs.map (fun b => .block b.1 b.2) ++ ((p.map Stage.stride).toList ++ stages l ps) := by
  simp [stages]

/-- What `forward` has in `ret` after the blocks `os`. -/
def retAfter (d : Option (Dicts3 α)) (ret : Result α) (os : List (Out α)) : Result α :=
  match d with
  | none => match os with | [] => ret | _ :: os => (os.getLast?.map Out.result).getD ret
  | some _ => (os.getLast?.map Out.result).getD ret

theorem runLayers_ok_iff (r : R) (x : Tensor α) (layers : List (List (Cfg α T Θ R × St α T Θ))) (ps : List (Option Striding.Block)) (L : Loop α) (ret : Result α) :
    (∃ d, (runLayers r x layers ps L).2 = .ok ⟨ret, d⟩) ↔ ∃ os, Flow r (stages layers ps) (blockInput x L.dicts) os ∧ ret = retAfter L.dicts L.ret os := by
  -- the blocks of one layer in front of anything
  have blocks : ∀ (k : List (Stage α T Θ R)) (K : Loop α → Prop),
      (∀ L : Loop α, K L ↔ ∃ os, Flow r k (blockInput x L.dicts) os ∧ ret = retAfter L.dicts L.ret os) →
      ∀ (bs : List (Cfg α T Θ R × St α T Θ)) (L : Loop α), (∃ L', (runBlocks r x bs L).2 = .ok L' ∧ K L') ↔
        ∃ os, Flow r (bs.map (fun b => .block b.1 b.2) ++ k) (blockInput x L.dicts) os ∧ ret = retAfter L.dicts L.ret os := by
    intro k K hK bs
    induction bs with
    | nil =>
      intro L
      simp only [runBlocks, Except.ok.injEq, exists_eq_left', List.map_nil, List.nil_append]
      exact hK L
    | cons b bs ih =>
      intro L
      rw [List.map_cons, List.cons_append]
      cases hf : Block.forward b.1 r (blockInput x L.dicts) b.2 with
      | mk s y =>
        cases y with
        | error e =>
          constructor
          · rintro ⟨L', h, _⟩
            have : (runBlocks r x (b :: bs) L).2 = .error e := by
              unfold runBlocks runBlock
              rw [hf]
            rw [this] at h
            cases h
          · rintro ⟨os, h, _⟩
            cases h with
            | block _ _ _ _ o os h1 h2 => rw [hf] at h1; cases h1
        | ok o =>
          have hrun : (runBlocks r x (b :: bs) L).2 =
              (runBlocks r x bs ⟨if L.dicts.isNone then L.ret else o.result, some (o.state, o.costate, o.data)⟩).2 := by
            conv_lhs => unfold runBlocks runBlock
            rw [hf]
          rw [hrun, ih]
          have hret : ∀ os, retAfter (some (o.state, o.costate, o.data)) (if L.dicts.isNone then L.ret else o.result) os = retAfter L.dicts L.ret (o :: os) := by
            intro os
            cases hd : L.dicts with
            | none => rfl
            | some d =>
              simp only [retAfter, Option.isNone_some, Bool.false_eq_true, if_false, List.getLast?_cons]
              cases os.getLast? with
              | none => rfl
              | some z => rfl
          constructor
          · rintro ⟨os, h1, h2⟩
            exact ⟨o :: os, .block b.1 b.2 _ _ o os (by rw [hf]) h1, by rw [h2]; exact hret os⟩
          · rintro ⟨os, h1, h2⟩
            cases h1 with
            | block _ _ _ _ o' os h3 h4 =>
              rw [hf] at h3
              cases h3
              exact ⟨os, h4, by rw [h2]; exact (hret os).symm⟩
  -- a striding block in front of anything
  have strideStep : ∀ (k : List (Stage α T Θ R)) (K : Loop α → Prop),
      (∀ L : Loop α, K L ↔ ∃ os, Flow r k (blockInput x L.dicts) os ∧ ret = retAfter L.dicts L.ret os) →
      ∀ (p : Option Striding.Block) (L : Loop α), (∃ L', runStride p L = .ok L' ∧ K L') ↔
        ∃ os, Flow r ((p.map Stage.stride).toList ++ k) (blockInput x L.dicts) os ∧ ret = retAfter L.dicts L.ret os := by
    intro k K hK p L
    cases p with
    | none =>
      simp only [runStride, Except.ok.injEq, exists_eq_left', Option.map_none, Option.toList_none, List.nil_append]
      exact hK L
    | some p =>
      simp only [Option.map_some, Option.toList_some, List.singleton_append]
      cases hd : L.dicts with
      | none =>
        constructor
        · rintro ⟨L', h, _⟩
          unfold runStride at h
          rw [hd] at h
          cases h
        · rintro ⟨os, h, _⟩
          cases h
      | some d =>
        unfold runStride
        rw [hd]
        dsimp only
        cases hs : Striding.forward p d.1 d.2.1 d.2.2 with
        | error e =>
          constructor
          · rintro ⟨L', h, _⟩
            cases h
          · rintro ⟨os, h, _⟩
            cases h with
            | stride _ _ S C D S' C' D' os h1 h2 => rw [hs] at h1; cases h1
        | ok d' =>
          simp only [bind, Except.bind, Except.ok.injEq, exists_eq_left', hK]
          constructor
          · rintro ⟨os, h1, h2⟩
            exact ⟨os, .stride p _ _ _ _ d'.1 d'.2.1 d'.2.2 os hs h1, h2⟩
          · rintro ⟨os, h1, h2⟩
            cases h1 with
            | stride _ _ S C D S' C' D' os h3 h4 =>
              rw [hs] at h3
              cases h3
              exact ⟨os, h4, h2⟩
  induction layers generalizing ps L with
  | nil =>
    have h1 : stages ([] : List (List (Cfg α T Θ R × St α T Θ))) ps = [] := rfl
    have h2 : (runLayers r x ([] : List (List (Cfg α T Θ R × St α T Θ))) ps L).2 = .ok L := by cases ps <;> rfl
    rw [h1, h2]
    constructor
    · rintro ⟨d, h⟩
      cases h
      refine ⟨[], .nil _, ?_⟩
      cases d <;> rfl
    · rintro ⟨os, h3, h4⟩
      cases h3
      refine ⟨L.dicts, ?_⟩
      rw [h4]
      cases hd : L.dicts with
      | none => cases L; cases hd; rfl
      | some d => cases L; cases hd; rfl
  | cons bs l ih =>
    cases ps with
    | nil =>
      have h1 : stages (bs :: l) ([] : List (Option Striding.Block)) = [] := rfl
      have h2 : (runLayers r x (bs :: l) [] L).2 = .ok L := rfl
      rw [h1, h2]
      constructor
      · rintro ⟨d, h⟩
        cases h
        refine ⟨[], .nil _, ?_⟩
        cases d <;> rfl
      · rintro ⟨os, h3, h4⟩
        cases h3
        refine ⟨L.dicts, ?_⟩
        rw [h4]
        cases hd : L.dicts with
        | none => cases L; cases hd; rfl
        | some d => cases L; cases hd; rfl
    | cons p ps =>
      rw [stages_cons, ← blocks _ _ (fun L => strideStep _ _ (fun L => ih ps L) p L) bs L]
      conv_lhs => unfold runLayers
      cases runBlocks r x bs L with
      | mk bs' y =>
        cases y with
        | error e =>
          constructor
          · rintro ⟨d, h⟩
            cases h
          · rintro ⟨L', h, _⟩
            cases h
        | ok L1 =>
          simp only [Except.ok.injEq, exists_eq_left']
          cases runStride p L1 with
          | error e =>
            constructor
            · rintro ⟨d, h⟩
              cases h
            · rintro ⟨L', h, _⟩
              cases h
          | ok L2 => simp

end Flow

end Verif.ResNet
