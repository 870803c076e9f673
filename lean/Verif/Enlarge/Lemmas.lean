import Verif.Enlarge.Model
import Verif.Enlarge.Spec
import Verif.Base.TensorLemmas

namespace Verif.Enlarge
open Verif Tensor

variable {α : Type}

/-! ## Volumes -/

theorem vol_set_mul {s : List Nat} {k : Nat} (hk : k < s.length) (x : Nat) :
    vol (s.set k x) = x * vol (s.set k 1) := by
  induction s generalizing k with
  | nil => simp at hk
  | cons n s ih =>
    cases k with
    | zero => simp
    | succ k =>
      simp only [List.set_cons_succ, vol]
      rw [ih (by simpa using hk)]
      ring

theorem vol_set_add {s : List Nat} {k : Nat} (hk : k < s.length) (a b : Nat) :
    vol (s.set k (a + b)) = vol (s.set k a) + vol (s.set k b) := by
  rw [vol_set_mul hk (a + b), vol_set_mul hk a, vol_set_mul hk b, Nat.add_mul]

theorem set_dimSize {s : List Nat} {k : Nat} : s.set k (dimSize s k) = s := by
  apply List.ext_getElem?
  intro i
  rw [List.getElem?_set]
  split
  · next h =>
    subst h
    split
    · next h2 => simp [dimSize, List.getD, h2]
    · next h2 => simp [List.getElem?_eq_none (not_lt.1 h2)]
  · rfl

/-! ## Permutations -/

theorem flatten_zipWith_perm {f : List α → List α → List α} (hf : ∀ x y, (f x y).Perm (x ++ y))
    (xs ys : List (List α)) (h : xs.length = ys.length) :
    (List.zipWith f xs ys).flatten.Perm (xs.flatten ++ ys.flatten) := by
  induction xs generalizing ys with
  | nil => cases ys with
    | nil => simp
    | cons => simp at h
  | cons x xs ih =>
    cases ys with
    | nil => simp at h
    | cons y ys =>
      simp only [List.zipWith_cons_cons, List.flatten_cons]
      refine ((hf x y).append (ih ys (by simpa using h))).trans ?_
      rw [List.append_assoc, List.append_assoc]
      refine List.Perm.append_left x ?_
      rw [← List.append_assoc, ← List.append_assoc]
      exact List.Perm.append_right _ List.perm_append_comm

theorem catData_perm {k : Nat} {s s' : List Nat} {a b : List α} (h : Compat k s s')
    (ha : a.length = vol s) (hb : b.length = vol s') : (catData k s s' a b).Perm (a ++ b) := by
  induction k generalizing s s' a b with
  | zero => simp [catData]
  | succ k ih =>
    match s, s', h with
    | n :: s, n' :: s', h =>
      obtain ⟨rfl, h⟩ := h
      simp only [catData]
      have ha' : a.length = n * vol s := ha
      have hb' : b.length = n * vol s' := hb
      have key : ∀ (xs ys : List (List α)), xs.length = ys.length → (∀ x ∈ xs, x.length = vol s) →
          (∀ y ∈ ys, y.length = vol s') →
          (List.zipWith (catData k s s') xs ys).flatten.Perm (xs.flatten ++ ys.flatten) := by
        intro xs
        induction xs with
        | nil => intro ys hl _ _; cases ys with
          | nil => simp
          | cons => simp at hl
        | cons x xs ihx =>
          intro ys hl hx hy
          cases ys with
          | nil => simp at hl
          | cons y ys =>
            simp only [List.zipWith_cons_cons, List.flatten_cons]
            refine ((ih h (hx x (by simp)) (hy y (by simp))).append
              (ihx ys (by simpa using hl) (fun z hz => hx z (by simp [hz]))
                (fun z hz => hy z (by simp [hz])))).trans ?_
            rw [List.append_assoc, List.append_assoc]
            refine List.Perm.append_left x ?_
            rw [← List.append_assoc, ← List.append_assoc]
            exact List.Perm.append_right _ List.perm_append_comm
      have := key (rows (vol s) n a) (rows (vol s') n b) (by simp)
        (mem_rows_length _ _ _ ha') (mem_rows_length _ _ _ hb')
      rw [flatten_rows _ _ _ ha', flatten_rows _ _ _ hb'] at this
      exact this

/-! ## Growing one dimension -/

theorem get?_length {t : Tensor α} (ht : t.WF) {idx : List Nat} {x : α} (h : t.get? idx = some x) :
    idx.length = t.shape.length ∧ ∀ k, k < t.shape.length → idx.getD k 0 < dimSize t.shape k := by
  apply (getData?_isSome_iff t.shape t.data ht idx).1
  unfold get? at h
  rw [h]; rfl

structure Grown (t : Tensor α) (c bA eA : Nat) (new : List α) (r : Tensor α) : Prop where
  wf : r.WF
  shape : r.shape = t.shape.set c (dimSize t.shape c + (bA + eA))
  keeps : ∀ idx x, t.get? idx = some x → r.get? (idx.set c (idx.getD c 0 + bA)) = some x
  entries : r.data.Perm (t.data ++ new)

theorem grow_once {t : Tensor α} (ht : t.WF) {c : Nat} (hc : c < t.shape.length) (bA eA : Nat)
    (b e : List α) (hb : b.length = vol (t.shape.set c bA)) (he : e.length = vol (t.shape.set c eA)) :
    Grown t c bA eA (b ++ e) (cat2 c (cat2 c ⟨t.shape.set c bA, b⟩ t) ⟨t.shape.set c eA, e⟩) := by
  have c1 : Compat c (t.shape.set c bA) t.shape := Compat.set _ hc
  have hwf1 : (cat2 c ⟨t.shape.set c bA, b⟩ t).WF := WF.cat2 (a := ⟨t.shape.set c bA, b⟩) hb ht c1
  have hsh1 : (cat2 c ⟨t.shape.set c bA, b⟩ t).shape = t.shape.set c (bA + dimSize t.shape c) := by
    simp [cat2, hc]
  have c2 : Compat c (cat2 c ⟨t.shape.set c bA, b⟩ t).shape (t.shape.set c eA) := by
    rw [hsh1]
    exact (Compat.set _ hc).trans (Compat.set _ hc).symm
  have hwf2 : (cat2 c (cat2 c ⟨t.shape.set c bA, b⟩ t) ⟨t.shape.set c eA, e⟩).WF :=
    WF.cat2 hwf1 (b := ⟨t.shape.set c eA, e⟩) he c2
  refine ⟨hwf2, ?_, ?_, ?_⟩
  · show (cat2 c ⟨t.shape.set c bA, b⟩ t).shape.set c _ = _
    rw [hsh1]
    simp only [List.set_set, dimSize_set _ hc]
    congr 1
    omega
  · intro idx x hx
    obtain ⟨hl, hlt⟩ := get?_length ht hx
    have hci : c < idx.length := by omega
    have hgd : (idx.set c (idx.getD c 0 + bA)).getD c 0 = idx.getD c 0 + bA := by
      simp [List.getD, hci]
    have h2 := getData?_catData (s := (cat2 c ⟨t.shape.set c bA, b⟩ t).shape) (s' := t.shape.set c eA)
      (a := (cat2 c ⟨t.shape.set c bA, b⟩ t).data) (b := e) c2 hwf1 he (idx.set c (idx.getD c 0 + bA))
      (by rw [hsh1]; simp [hl])
    have h1 := getData?_catData (s := t.shape.set c bA) (s' := t.shape) (a := b) (b := t.data) c1 hb ht
      (idx.set c (idx.getD c 0 + bA)) (by simp [hl])
    have hd1 : dimSize (cat2 c ⟨t.shape.set c bA, b⟩ t).shape c = bA + dimSize t.shape c := by
      rw [hsh1, dimSize_set _ hc]
    have hlc := hlt c hc
    show getData? ((cat2 c ⟨t.shape.set c bA, b⟩ t).shape.set c
      (dimSize (cat2 c ⟨t.shape.set c bA, b⟩ t).shape c + dimSize (t.shape.set c eA) c)) _ _ = _
    unfold cat2 at h2 ⊢
    simp only at h2 ⊢
    rw [h2]
    unfold cat2 at hd1
    simp only at hd1
    rw [hd1, hgd, if_pos (by omega), h1, hgd, dimSize_set _ hc, if_neg (by omega), List.set_set]
    have : idx.set c (idx.getD c 0 + bA - bA) = idx := by
      rw [Nat.add_sub_cancel]
      exact set_dimSize
    rw [this]
    exact hx
  · have p2 := catData_perm (a := (cat2 c ⟨t.shape.set c bA, b⟩ t).data) (b := e) c2 hwf1 he
    have p1 := catData_perm (a := b) (b := t.data) c1 hb ht
    refine p2.trans ((List.Perm.append_right e p1).trans ?_)
    rw [← List.append_assoc]
    exact List.Perm.append_right _ List.perm_append_comm

/-! ## The loop over the dimensions -/

/-- Adding differences from dimension `c` on. -/
def addFrom (c : Nat) (ds : List Nat) (s : List Nat) : List Nat :=
  s.mapIdx (fun (k n : Nat) => if k < c then n else n + ds.getD (k - c) 0)

theorem addFrom_step (c d : Nat) (ds : List Nat) (s : List Nat) :
    addFrom (c + 1) ds (s.set c (dimSize s c + d)) = addFrom c (d :: ds) s := by
  apply List.ext_getElem?
  intro i
  simp only [addFrom, List.getElem?_mapIdx, List.getElem?_set]
  by_cases h : c = i
  · subst h
    by_cases hl : c < s.length
    · simp [hl, dimSize, List.getD]
    · simp [hl]
  · rw [if_neg h]
    by_cases h2 : i < c
    · have : i < c + 1 := by omega
      simp [h2, this]
    · have h3 : ¬ i < c + 1 := by omega
      have h4 : i - c = (i - (c + 1)) + 1 := by omega
      simp [h2, h3, h4, List.getD]

theorem addFrom_zero (c : Nat) (ds s : List Nat) : addFrom c (0 :: ds) s = addFrom (c + 1) ds s := by
  have := addFrom_step c 0 ds s
  rw [show dimSize s c + 0 = dimSize s c from rfl, set_dimSize] at this
  exact this.symm

theorem addFrom_nil (c : Nat) (s : List Nat) : addFrom c [] s = s := by
  apply List.ext_getElem?
  intro i
  simp [addFrom, List.getElem?_mapIdx]

theorem vol_addFrom_le (c : Nat) (ds s : List Nat) : vol s ≤ vol (addFrom c ds s) := by
  induction ds generalizing c s with
  | nil => rw [addFrom_nil]
  | cons d ds ih =>
    rw [← addFrom_step]
    refine le_trans ?_ (ih _ _)
    by_cases hc : c < s.length
    · rw [vol_set_add hc, set_dimSize]; omega
    · rw [List.set_eq_of_length_le (by omega)]

theorem viewSlice_ok (pars : List α) (lo : Nat) (size : List Nat) (h : lo + vol size ≤ pars.length) :
    viewSlice pars lo size = .ok ⟨size, (pars.drop lo).take (vol size)⟩ := by
  unfold viewSlice
  rw [if_pos (by simp; omega)]

theorem growLoop_ok (pars : List α) (c : Nat) (ds : List Nat) (t : Tensor α) (indx : Nat) (ht : t.WF)
    (hlen : c + ds.length ≤ t.shape.length)
    (hp : indx + (vol (addFrom c ds t.shape) - vol t.shape) ≤ pars.length) :
    ∃ r, growLoop pars c (ds.map (fun (d : Nat) => (d : Int))) t indx = .ok r ∧ r.WF ∧
      r.shape = addFrom c ds t.shape ∧
      (∀ idx x, t.get? idx = some x → r.get? (addFrom c (ds.map (· / 2)) idx) = some x) ∧
      r.data.Perm (t.data ++ (pars.drop indx).take (vol (addFrom c ds t.shape) - vol t.shape)) := by
  induction ds generalizing c t indx with
  | nil =>
    refine ⟨t, rfl, ht, (addFrom_nil c _).symm, ?_, ?_⟩
    · intro idx x hx; rw [List.map_nil, addFrom_nil]; exact hx
    · rw [addFrom_nil]; simp
  | cons d ds ih =>
    have hc : c < t.shape.length := by simp at hlen; omega
    rw [List.map_cons, growLoop]
    by_cases hd : 0 < d
    · have hd' : (0 : Int) < (d : Int) := by omega
      rw [if_pos hd', if_pos hc]
      simp only [Int.toNat_natCast]
      have hbe : d / 2 + (d - d / 2) = d := by omega
      have hvol : vol (t.shape.set c (dimSize t.shape c + d)) =
          vol t.shape + (vol (t.shape.set c (d / 2)) + vol (t.shape.set c (d - d / 2))) := by
        rw [vol_set_add hc, set_dimSize]
        conv_lhs => rw [← hbe, vol_set_add hc]
      have hmono := vol_addFrom_le (c + 1) ds (t.shape.set c (dimSize t.shape c + d))
      rw [addFrom_step] at hmono
      rw [viewSlice_ok pars indx (t.shape.set c (d / 2)) (by omega),
        viewSlice_ok pars (indx + vol (t.shape.set c (d / 2))) (t.shape.set c (d - d / 2)) (by omega)]
      simp only [bind, Except.bind]
      have hg := grow_once ht hc (d / 2) (d - d / 2)
        ((pars.drop indx).take (vol (t.shape.set c (d / 2))))
        ((pars.drop (indx + vol (t.shape.set c (d / 2)))).take (vol (t.shape.set c (d - d / 2))))
        (by simp; omega) (by simp; omega)
      generalize cat2 c (cat2 c _ t) _ = t1 at hg ⊢
      have hgs : t1.shape = t.shape.set c (dimSize t.shape c + d) := by rw [hg.shape, hbe]
      obtain ⟨r, h1, h2, h3, h4, h5⟩ := ih (c + 1) t1
        (indx + vol (t.shape.set c (d / 2)) + vol (t.shape.set c (d - d / 2))) hg.wf
        (by rw [hgs]; simp at hlen ⊢; omega)
        (by rw [hgs, addFrom_step]; omega)
      refine ⟨r, h1, h2, ?_, ?_, ?_⟩
      · rw [h3, hgs, addFrom_step]
      · intro idx x hx
        have := h4 _ x (hg.keeps idx x hx)
        rw [List.map_cons, ← addFrom_step]
        exact this
      · refine h5.trans ((List.Perm.append_right _ hg.entries).trans ?_)
        rw [hgs, addFrom_step, List.append_assoc]
        apply List.Perm.append_left
        apply List.Perm.of_eq
        have e1 : vol (addFrom c (d :: ds) t.shape) - vol t.shape
            = vol (t.shape.set c (d / 2)) + (vol (t.shape.set c (d - d / 2)) +
              (vol (addFrom c (d :: ds) t.shape) - vol (t.shape.set c (dimSize t.shape c + d)))) := by
          omega
        rw [e1, List.take_add, List.take_add, List.drop_drop, List.drop_drop, List.append_assoc]
    · have hd0 : d = 0 := by omega
      subst hd0
      rw [if_neg (by simp)]
      rw [addFrom_zero] at hp ⊢
      obtain ⟨r, h1, h2, h3, h4, h5⟩ := ih (c + 1) t indx ht (by simp at hlen; omega) hp
      refine ⟨r, h1, h2, h3, ?_, h5⟩
      intro idx x hx
      rw [List.map_cons, Nat.zero_div, addFrom_zero]
      exact h4 idx x hx

theorem growLoop_short (pars : List α) (c : Nat) (ds : List Nat) (t : Tensor α) (indx : Nat) (ht : t.WF)
    (hlen : c + ds.length ≤ t.shape.length) (hi : indx ≤ pars.length)
    (hp : pars.length < indx + (vol (addFrom c ds t.shape) - vol t.shape)) :
    growLoop pars c (ds.map (fun (d : Nat) => (d : Int))) t indx = .error .runtimeError := by
  induction ds generalizing c t indx with
  | nil => rw [addFrom_nil] at hp; omega
  | cons d ds ih =>
    have hc : c < t.shape.length := by simp at hlen; omega
    rw [List.map_cons, growLoop]
    by_cases hd : 0 < d
    · have hd' : (0 : Int) < (d : Int) := by omega
      rw [if_pos hd', if_pos hc]
      simp only [Int.toNat_natCast]
      by_cases hb : indx + vol (t.shape.set c (d / 2)) ≤ pars.length
      · rw [viewSlice_ok pars indx (t.shape.set c (d / 2)) hb]
        by_cases he : indx + vol (t.shape.set c (d / 2)) + vol (t.shape.set c (d - d / 2)) ≤ pars.length
        · rw [viewSlice_ok pars _ (t.shape.set c (d - d / 2)) he]
          simp only [bind, Except.bind]
          have hbe : d / 2 + (d - d / 2) = d := by omega
          have hvol : vol (t.shape.set c (dimSize t.shape c + d)) =
              vol t.shape + (vol (t.shape.set c (d / 2)) + vol (t.shape.set c (d - d / 2))) := by
            rw [vol_set_add hc, set_dimSize]
            conv_lhs => rw [← hbe, vol_set_add hc]
          have hg := grow_once ht hc (d / 2) (d - d / 2)
            ((pars.drop indx).take (vol (t.shape.set c (d / 2))))
            ((pars.drop (indx + vol (t.shape.set c (d / 2)))).take (vol (t.shape.set c (d - d / 2))))
            (by simp; omega) (by simp; omega)
          generalize cat2 c (cat2 c _ t) _ = t1 at hg ⊢
          have hgs : t1.shape = t.shape.set c (dimSize t.shape c + d) := by rw [hg.shape, hbe]
          have hmono := vol_addFrom_le (c + 1) ds (t.shape.set c (dimSize t.shape c + d))
          apply ih (c + 1) t1 _ hg.wf (by rw [hgs]; simp at hlen ⊢; omega) he
          rw [hgs, addFrom_step] at *
          omega
        · have : viewSlice pars (indx + vol (t.shape.set c (d / 2))) (t.shape.set c (d - d / 2))
              = .error .runtimeError := by
            unfold viewSlice
            rw [if_neg (by simp; omega)]
          rw [this]; rfl
      · have : viewSlice pars indx (t.shape.set c (d / 2)) = .error .runtimeError := by
          unfold viewSlice
          rw [if_neg (by simp; omega)]
        rw [this]; rfl
    · have hd0 : d = 0 := by omega
      subst hd0
      rw [if_neg (by simp)]
      rw [addFrom_zero] at hp
      exact ih (c + 1) t indx ht (by simp at hlen; omega) hi hp

/-! ## Differences -/

/-- The size differences as natural numbers. -/
def diffs (cur target : List Nat) : List Nat := List.zipWith (fun c t => t - c) cur target

theorem diffs_getD {cur target : List Nat} (h : cur.length = target.length) (k : Nat) :
    (diffs cur target).getD k 0 = dimSize target k - dimSize cur k := by
  unfold diffs dimSize
  by_cases hk : k < cur.length
  · have hk' : k < target.length := by omega
    simp [List.getD, hk, hk']
  · have hk' : ¬ k < target.length := by omega
    simp [List.getD, hk, hk']

theorem addFrom_diffs {cur target : List Nat} (h : Fits cur target) :
    addFrom 0 (diffs cur target) cur = target := by
  apply List.ext_getElem?
  intro i
  simp only [addFrom, List.getElem?_mapIdx, Nat.not_lt_zero, if_false, Nat.sub_zero, diffs_getD h.1]
  by_cases hi : i < cur.length
  · have hi' : i < target.length := by rw [← h.1]; exact hi
    have hle := h.2 i cur[i] target[i] (List.getElem?_eq_getElem hi) (List.getElem?_eq_getElem hi')
    simp only [List.getElem?_eq_getElem hi, List.getElem?_eq_getElem hi', dimSize, List.getD,
      Option.map_some, Option.getD_some, Option.some.injEq]
    omega
  · have hi' : ¬ i < target.length := by rw [← h.1]; exact hi
    rw [List.getElem?_eq_none (by omega), List.getElem?_eq_none (by omega)]; rfl

theorem addFrom_half {cur target : List Nat} (h : cur.length = target.length) (idx : List Nat) :
    addFrom 0 ((diffs cur target).map (· / 2)) idx = shifted cur target idx := by
  unfold addFrom shifted
  congr 1
  funext k n
  rw [if_neg (Nat.not_lt_zero k), Nat.sub_zero, ← diffs_getD h]
  by_cases hk : k < (diffs cur target).length
  · simp [List.getD, hk]
  · simp [List.getD, hk]

theorem diffLoop_ok (desired : List Nat) (i : Nat) (cs : List Nat)
    (h : ∀ (j c : Nat), cs[j]? = some c → ∃ d, desired[i + j]? = some d ∧ c ≤ d) :
    diffLoop desired i cs = .ok ((List.zipWith (fun c t => t - c) cs (desired.drop i)).map (fun (d : Nat) => (d : Int))) := by
  induction cs generalizing i with
  | nil => rfl
  | cons c cs ih =>
    obtain ⟨d, hd, hle⟩ := h 0 c rfl
    rw [Nat.add_zero] at hd
    have hi : i < desired.length := (List.getElem?_eq_some_iff.1 hd).1
    rw [diffLoop, hd]
    simp only
    rw [if_neg (by omega), ih (i + 1) (fun j c hj => by
      have := h (j + 1) c (by simpa using hj)
      rw [show i + 1 + j = i + (j + 1) by omega]; exact this)]
    rw [List.drop_eq_getElem_cons hi]
    rw [List.getElem?_eq_getElem hi] at hd
    simp only [Option.some.injEq] at hd
    simp only [bind, Except.bind, List.zipWith_cons_cons, List.map_cons, hd]
    rw [Nat.cast_sub hle]

theorem diffLoop_fits {cur target : List Nat} (h : Fits cur target) :
    diffLoop target 0 cur = .ok ((diffs cur target).map (fun (d : Nat) => (d : Int))) := by
  have := diffLoop_ok target 0 cur (by
    intro j c hj
    have hjl : j < target.length := by rw [← h.1]; exact (List.getElem?_eq_some_iff.1 hj).1
    refine ⟨target[j], by simp [hjl], ?_⟩
    exact h.2 j c _ hj (List.getElem?_eq_getElem hjl))
  simpa [diffs] using this

theorem diffs_any {cur target : List Nat} (h : Fits cur target) :
    (((diffs cur target).map (fun (d : Nat) => (d : Int))).any (fun x => decide (0 < x)) = true) ↔ cur ≠ target := by
  constructor
  · intro hany hcon
    subst hcon
    simp only [List.any_map, List.any_eq_true, Function.comp] at hany
    obtain ⟨x, hx, hx'⟩ := hany
    obtain ⟨i, hi, rfl⟩ := List.getElem_of_mem hx
    simp [diffs] at hx'
  · intro hne
    by_contra hany
    apply hne
    have hz : ∀ x ∈ diffs cur target, x = 0 := by
      intro x hx
      by_contra hx0
      apply hany
      simp only [List.any_map, List.any_eq_true, Function.comp]
      exact ⟨x, hx, by simp; omega⟩
    rw [← addFrom_diffs h]
    apply List.ext_getElem?
    intro i
    simp only [addFrom, List.getElem?_mapIdx, Nat.not_lt_zero, if_false, Nat.sub_zero]
    have : (diffs cur target).getD i 0 = 0 := by
      by_cases hi : i < (diffs cur target).length
      · simp only [List.getD, List.getElem?_eq_getElem hi, Option.getD_some]
        exact hz _ (List.getElem_mem hi)
      · simp [List.getD, hi]
    rw [this]
    simp

theorem vol_le_of_fits {cur target : List Nat} (h : Fits cur target) : vol cur ≤ vol target := by
  have := vol_addFrom_le 0 (diffs cur target) cur
  rwa [addFrom_diffs h] at this

theorem createOne_fits {cur target : List Nat} (h : Fits cur target) :
    createOne target cur = .ok (if cur = target then none else
      some (vol target - vol cur, (diffs cur target).map (fun (d : Nat) => (d : Int)))) := by
  unfold createOne
  rw [diffLoop_fits h]
  simp only [bind, Except.bind]
  by_cases hc : cur = target
  · rw [if_neg (fun hh => (diffs_any h).1 hh hc), if_pos hc]
  · rw [if_pos ((diffs_any h).2 hc), if_neg hc, rawCount, if_neg (not_lt.2 (vol_le_of_fits h))]

theorem diffs_cast {cur target : List Nat} (h : Fits cur target) :
    List.zipWith (fun (c n : Nat) => (n : Int) - (c : Int)) cur target =
      (diffs cur target).map (fun (d : Nat) => (d : Int)) := by
  apply List.ext_getElem?
  intro i
  simp only [diffs, List.getElem?_zipWith, List.getElem?_map]
  by_cases hi : i < cur.length
  · have hi' : i < target.length := by rw [← h.1]; exact hi
    have := h.2 i _ _ (List.getElem?_eq_getElem hi) (List.getElem?_eq_getElem hi')
    rw [List.getElem?_eq_getElem hi, List.getElem?_eq_getElem hi']
    simp only [Option.map_some, Nat.cast_sub this]
  · rw [List.getElem?_eq_none (by omega)]; rfl

/-! ## Filling the dictionary of dictionaries column by column -/

theorem set_middle {V : Type} (A B : SDict String V) (k : String) (v v' : V)
    (h : ∀ x ∈ SDict.keys A, x < k) : SDict.set (A ++ (k, v) :: B) k v' = A ++ (k, v') :: B := by
  induction A with
  | nil => simp [SDict.set]
  | cons p A ih =>
    obtain ⟨a, b⟩ := p
    have ha : a < k := h a (by simp)
    rw [List.cons_append, SDict.set, if_neg (not_lt.2 (le_of_lt ha)), if_neg (ne_of_lt ha),
      ih (fun x hx => h x (by simp [hx]))]
    rfl

theorem get?_middle {V : Type} (A B : SDict String V) (k : String) (v : V)
    (h : ∀ x ∈ SDict.keys A, x < k) : SDict.get? (A ++ (k, v) :: B) k = some v := by
  induction A with
  | nil => simp [SDict.get?]
  | cons p A ih =>
    obtain ⟨a, b⟩ := p
    have ha : a < k := h a (by simp)
    rw [List.cons_append, SDict.get?, if_neg (ne_of_lt ha), ih (fun x hx => h x (by simp [hx]))]

theorem get?_of_lt {V : Type} (A : SDict String V) (k : String) (h : ∀ x ∈ SDict.keys A, x < k) :
    SDict.get? A k = none := by
  rw [SDict.get?_eq_none_iff]
  intro hk
  exact lt_irrefl _ (h k hk)

/-- The row of block `b` after the keys `ks` have been processed. -/
def row (ent : String → String × SDict String (Tensor α) → Entry α) (ks : List String)
    (b : String × SDict String (Tensor α)) : String × SDict String (Entry α) :=
  (b.1, ks.map (fun k => (k, ent k b)))

theorem keys_map_row (ent : String → String × SDict String (Tensor α) → Entry α) (ks : List String)
    (g : Dicts.DDict (Tensor α)) : SDict.keys (g.map (row ent ks)) = SDict.keys g := by
  simp only [SDict.keys, List.map_map]
  rfl

theorem keys_row (ent : String → String × SDict String (Tensor α) → Entry α) (ks : List String)
    (b : String × SDict String (Tensor α)) : SDict.keys (row ent ks b).2 = ks := by
  simp [SDict.keys, row, Function.comp_def]

/-- What the loop body computes for one tensor, with the desired size `D`. -/
def entryFor (mk : String → String → Nat → List α) (D : List Nat) (k dk : String) (t : Tensor α) :
    Py (Entry α) := do
  let desired ← setChannel D t.shape
  let e ← createOne desired t.shape
  .ok (e.map (fun c => (mk dk k c.1, c.2)))

theorem createStep_ok {mk : String → String → Nat → List α} {D D' : List Nat} {k : String}
    {enl : Dicts.DDict (Entry α)} {b : String × SDict String (Tensor α)} {t : Tensor α} {e : Entry α}
    (hD : ∀ c, D'.set 1 c = D.set 1 c) (ht : SDict.get? b.2 k = some t)
    (he : entryFor mk D k b.1 t = .ok e) :
    ∃ D'', createStep mk k (enl, D') b = .ok (store enl b.1 k e, D'') ∧ ∀ c, D''.set 1 c = D.set 1 c := by
  have hlen : D'.length = D.length := by
    have := congrArg List.length (hD 0)
    simpa using this
  unfold entryFor at he
  unfold createStep
  simp only [ht]
  cases hs : setChannel D t.shape with
  | error x => rw [hs] at he; cases he
  | ok d =>
    rw [hs] at he
    have hs' : setChannel D' t.shape = .ok d := by
      unfold setChannel at hs ⊢
      cases h1 : t.shape[1]? with
      | none => rw [h1] at hs; cases hs
      | some c =>
        rw [h1] at hs
        cases h2 : D[1]? with
        | none => rw [h2] at hs; cases hs
        | some x =>
          rw [h2] at hs
          have hl : 1 < D'.length := by rw [hlen]; exact (List.getElem?_eq_some_iff.1 h2).1
          rw [List.getElem?_eq_getElem hl]
          simp only at hs ⊢
          rw [hD]; exact hs
    have hdset : ∀ c, d.set 1 c = D.set 1 c := by
      unfold setChannel at hs
      split at hs
      · cases hs; intro c; rw [List.set_set]
      · cases hs
    rw [hs']
    simp only [bind, Except.bind] at he ⊢
    cases h3 : createOne d t.shape with
    | error x => rw [h3] at he; cases he
    | ok o =>
      rw [h3] at he
      simp only [Except.ok.injEq] at he
      exact ⟨d, by simp only [he], hdset⟩

theorem createKey_ok {mk : String → String → Nat → List α}
    (ent : String → String × SDict String (Tensor α) → Entry α) (g : Dicts.DDict (Tensor α))
    (hg : SDict.Sorted g) (ks : List String) (k : String) (hks : ∀ x ∈ ks, x < k) (T : Tensor α)
    (h : ∀ b ∈ g, ∃ t, SDict.get? b.2 k = some t ∧ entryFor mk T.shape k b.1 t = .ok (ent k b)) :
    ∃ D', createKey mk g (if ks = [] then [] else g.map (row ent ks)) (k, T)
      = .ok (g.map (row ent (ks ++ [k])), D') := by
  have key : ∀ (g2 g1 : Dicts.DDict (Tensor α)) (D' : List Nat), SDict.Sorted (g1 ++ g2) →
      (∀ c, D'.set 1 c = T.shape.set 1 c) →
      (∀ b ∈ g2, ∃ t, SDict.get? b.2 k = some t ∧ entryFor mk T.shape k b.1 t = .ok (ent k b)) →
      ∃ D'', g2.foldlM (createStep mk k)
        (g1.map (row ent (ks ++ [k])) ++ (if ks = [] then [] else g2.map (row ent ks)), D')
        = (.ok ((g1 ++ g2).map (row ent (ks ++ [k])), D'') : Py _) := by
    intro g2
    induction g2 with
    | nil =>
      intro g1 D' _ _ _
      refine ⟨D', ?_⟩
      cases ks <;> simp [pure, Except.pure]
    | cons b g2 ih =>
      intro g1 D' hs hD hent
      obtain ⟨t, ht, he⟩ := hent b (by simp)
      obtain ⟨D'', hstep, hD''⟩ := createStep_ok
        (enl := g1.map (row ent (ks ++ [k])) ++ (if ks = [] then [] else (b :: g2).map (row ent ks)))
        hD ht he
      rw [List.foldlM_cons, hstep]
      have hlt : ∀ x ∈ SDict.keys (g1.map (row ent (ks ++ [k]))), x < b.1 := by
        rw [keys_map_row]
        intro x hx
        unfold SDict.Sorted at hs
        rw [SDict.keys_append, List.pairwise_append] at hs
        exact hs.2.2 x hx b.1 (by simp)
      have hstore : store (g1.map (row ent (ks ++ [k])) ++
          (if ks = [] then [] else (b :: g2).map (row ent ks))) b.1 k (ent k b)
          = (g1 ++ [b]).map (row ent (ks ++ [k])) ++ (if ks = [] then [] else g2.map (row ent ks)) := by
        unfold store
        by_cases hk : ks = []
        · subst hk
          simp only [if_true, List.append_nil]
          rw [get?_of_lt _ _ hlt, SDict.set_of_forall_lt hlt]
          simp [row, SDict.set]
        · simp only [hk, if_false, List.map_cons]
          have hrow : row ent ks b = (b.1, (row ent ks b).2) := rfl
          rw [hrow, get?_middle _ _ _ _ hlt, set_middle _ _ _ _ _ hlt]
          simp only [Option.getD_some]
          rw [SDict.set_of_forall_lt (by rw [keys_row]; exact hks)]
          simp [row]
      rw [hstore]
      obtain ⟨D3, h3⟩ := ih (g1 ++ [b]) D'' (by simpa using hs) hD'' (fun x hx => hent x (by simp [hx]))
      refine ⟨D3, ?_⟩
      change List.foldlM _ _ g2 = (_ : Py _)
      rw [h3]
      simp
  have := key g [] T.shape (by simpa using hg) (fun _ => rfl) h
  simpa [createKey] using this

theorem create_ok {mk : String → String → Nat → List α}
    (ent : String → String × SDict String (Tensor α) → Entry α) (g : Dicts.DDict (Tensor α))
    (hg : SDict.Sorted g) (desired : SDict String (Tensor α)) (hd : SDict.Sorted desired)
    (hne : desired ≠ []) (dims : List Nat)
    (h : ∀ p ∈ desired, ∀ b ∈ g, ∃ t, SDict.get? b.2 p.1 = some t ∧
      entryFor mk p.2.shape p.1 b.1 t = .ok (ent p.1 b)) :
    create mk g (some desired) (some dims) = .ok (some (g.map (row ent (SDict.keys desired)))) := by
  have key : ∀ (d2 : SDict String (Tensor α)) (ks : List String),
      (ks ++ SDict.keys d2).Pairwise (· < ·) →
      (∀ p ∈ d2, ∀ b ∈ g, ∃ t, SDict.get? b.2 p.1 = some t ∧
        entryFor mk p.2.shape p.1 b.1 t = .ok (ent p.1 b)) →
      d2.foldlM (fun (enl : Dicts.DDict (Entry α)) p => do .ok (← createKey mk g enl p).1)
        (if ks = [] then [] else g.map (row ent ks))
        = (.ok (if ks ++ SDict.keys d2 = [] then [] else g.map (row ent (ks ++ SDict.keys d2))) : Py _) := by
    intro d2
    induction d2 with
    | nil => intro ks _ _; simp [pure, Except.pure]
    | cons p d2 ih =>
      intro ks hp hent
      rw [List.pairwise_append] at hp
      obtain ⟨D', hk⟩ := createKey_ok ent g hg ks p.1 (fun x hx => hp.2.2 x hx p.1 (by simp)) p.2
        (hent p (by simp))
      rw [List.foldlM_cons, hk]
      have := ih (ks ++ [p.1]) (by
        rw [List.append_assoc, List.pairwise_append]; exact hp) (fun q hq => hent q (by simp [hq]))
      rw [if_neg (by simp)] at this
      change List.foldlM _ _ d2 = (_ : Py _)
      rw [this]
      simp
  have := key desired [] (by rw [List.nil_append]; exact hd) h
  unfold create
  simp only [if_true, List.nil_append] at this
  simp only
  rw [this]
  have hk : SDict.keys desired ≠ [] := by
    cases desired with
    | nil => exact absurd rfl hne
    | cons => simp
  simp [bind, Except.bind, hk]

theorem zipItems_map {V W : Type} (g : SDict String V) (f : String × V → String × W) :
    zipItems g (g.map f) = g.map (fun b => (b.1, (b.2, (f b).2))) := by
  induction g with
  | nil => rfl
  | cons b g ih =>
    simp only [zipItems, List.map_cons, List.zipWith_cons_cons] at ih ⊢
    rw [ih]

theorem zipItems_keys {V W : Type} (d : SDict String V) (f : String → W) :
    zipItems d ((SDict.keys d).map (fun k => (k, f k))) = d.map (fun p => (p.1, (p.2, f p.1))) := by
  have : (SDict.keys d).map (fun k => (k, f k)) = d.map (fun p => (p.1, f p.1)) := by
    simp [SDict.keys, Function.comp_def]
  rw [this, zipItems_map]

end Verif.Enlarge
