import Verif.Notebooks.Model
import Verif.Spheres.Props

/-! # Lemmas for the notebooks -/

namespace Verif.Notebooks
open Verif

variable {α K X Y P : Type}

theorem mapM_ok {β γ : Type} (f : β → Py γ) (g : β → γ) (l : List β) (h : ∀ b ∈ l, f b = .ok (g b)) : l.mapM f = .ok (l.map g) := by
  induction l with
  | nil => rfl
  | cons a l ih =>
    rw [List.mapM_cons, h a (List.mem_cons_self ..), ih fun b hb => h b (List.mem_cons_of_mem _ hb)]
    rfl

theorem mapM_map_ok {β γ δ : Type} (f : γ → Py δ) (g : β → γ) (k : β → δ) (l : List β) (h : ∀ b ∈ l, f (g b) = .ok (k b)) : (l.map g).mapM f = .ok (l.map k) := by
  induction l with
  | nil => rfl
  | cons a l ih =>
    rw [List.map_cons, List.mapM_cons, h a (List.mem_cons_self ..), ih fun b hb => h b (List.mem_cons_of_mem _ hb)]
    rfl

/-- A loop fails at the first failing element. -/
theorem mapM_error {β γ : Type} (f : β → Py γ) (g : β → γ) (l r : List β) (a : β) (e : Err) (h : ∀ b ∈ l, f b = .ok (g b)) (ha : f a = .error e) : (l ++ a :: r).mapM f = .error e := by
  induction l with
  | nil =>
    rw [List.nil_append, List.mapM_cons, ha]
    rfl
  | cons b l ih =>
    rw [List.cons_append, List.mapM_cons, h b (List.mem_cons_self ..), ih fun c hc => h c (List.mem_cons_of_mem _ hc)]
    rfl

theorem item_ok {l : List α} {i : Nat} {a : α} : item l i = .ok a ↔ l[i]? = some a := by
  unfold item
  split <;> rename_i h <;> rw [h]
  · exact ⟨fun e => by rw [Except.ok.inj e], fun e => by rw [Option.some.inj e]⟩
  · exact ⟨fun e => (by cases e), fun e => (by cases e)⟩

theorem item_get {l : List α} {i : Nat} (h : i < l.length) : item l i = .ok l[i] := item_ok.2 (List.getElem?_eq_getElem h)

theorem item_error {l : List α} {i : Nat} (h : l.length ≤ i) : item l i = .error .indexError := by
  unfold item
  rw [List.getElem?_eq_none h]

theorem lastItem_append (l : List α) (a : α) : lastItem (l ++ [a]) = .ok a := by
  unfold lastItem
  rw [List.getLast?_append]
  rfl

/-- The batches of a loader by their numbers. -/
theorem chunks_get {size : Nat} (hs : 0 < size) (fuel : Nat) (l : List α) (hl : l.length ≤ fuel) (b : Nat) :
    (Spheres.chunks size fuel l)[b]? = if b * size < l.length then some ((l.drop (b * size)).take size) else none := by
  induction fuel generalizing l b with
  | zero =>
    obtain rfl : l = [] := List.length_eq_zero_iff.1 (by omega)
    simp [Spheres.chunks]
  | succ fuel ih =>
    cases l with
    | nil => simp [Spheres.chunks]
    | cons x xs =>
      rw [Spheres.chunks]
      cases b with
      | zero => simp
      | succ b =>
        rw [List.getElem?_cons_succ, ih _ (by rw [List.length_drop]; simp only [List.length_cons] at hl ⊢; omega), List.length_drop, List.drop_drop,
          show (b + 1) * size = size + b * size by ring]
        by_cases h : b * size < (x :: xs).length - size
        · rw [if_pos h, if_pos (by omega)]
        · rw [if_neg h, if_neg (by omega)]

theorem loader_ok {size : Nat} (hs : size ≠ 0) (l : List α) : Spheres.loader size false l = .ok (Spheres.chunks size l.length l) := by
  rw [Spheres.loader, if_neg hs]
  rfl

theorem chunks_nil {size : Nat} (fuel : Nat) : Spheres.chunks size fuel ([] : List α) = [] := by cases fuel <;> rfl

theorem chunks_ne_nil {size : Nat} {l : List α} (h : l ≠ []) : Spheres.chunks size l.length l ≠ [] := by
  cases l with
  | nil => exact absurd rfl h
  | cons a l => simp [Spheres.chunks]

/-- Joining the trajectories of batches whose samples do not influence each other. -/
theorem joinTime_fold {τ : Type} (times : List τ) (φ : τ → X → Y) (bs : List (List X)) (acc : List X) :
    (bs.map fun b => times.map fun t => b.map (φ t)).foldlM joinTime (times.map fun t => acc.map (φ t)) = .ok (times.map fun t => (acc ++ bs.flatten).map (φ t)) := by
  induction bs generalizing acc with
  | nil =>
    rw [List.flatten_nil, List.append_nil]
    rfl
  | cons b bs ih =>
    rw [List.map_cons, List.foldlM_cons, joinTime, if_pos (by rw [List.length_map, List.length_map])]
    have : List.zipWith (· ++ ·) (times.map fun t => acc.map (φ t)) (times.map fun t => b.map (φ t)) = times.map fun t => (acc ++ b).map (φ t) := by
      rw [List.zipWith_map, List.zipWith_self]
      simp
    rw [this]
    refine (ih (acc ++ b)).trans ?_
    rw [List.append_assoc, List.flatten_cons]

theorem catTime_ok {τ : Type} (times : List τ) (φ : τ → X → Y) (bs : List (List X)) (h : bs ≠ []) :
    catTime (bs.map fun b => times.map fun t => b.map (φ t)) = .ok (times.map fun t => bs.flatten.map (φ t)) := by
  cases bs with
  | nil => exact absurd rfl h
  | cons b bs =>
    rw [List.map_cons, catTime, joinTime_fold, List.flatten_cons]

theorem reshape_get (h w : Nat) (l : List α) (i j : Nat) (hi : i < h) (hj : j < w) (r : List α) (hr : (reshape h w l)[i]? = some r) : r[j]? = l[i * w + j]? := by
  unfold reshape at hr
  rw [List.getElem?_map, List.getElem?_range hi] at hr
  obtain rfl := Option.some.inj hr
  rw [List.getElem?_take_of_lt hj, List.getElem?_drop]

/-- Entries of lists that are put together from pieces of equal length. -/
theorem flatten_get (w : Nat) (ls : List (List α)) (hw : ∀ l ∈ ls, l.length = w) (i j : Nat) (hj : j < w) (l : List α) (hl : ls[i]? = some l) : ls.flatten[i * w + j]? = l[j]? := by
  induction ls generalizing i with
  | nil => simp at hl
  | cons a ls ih =>
    have ha : a.length = w := hw a (List.mem_cons_self ..)
    rw [List.flatten_cons]
    cases i with
    | zero =>
      rw [List.getElem?_cons_zero] at hl
      obtain rfl := Option.some.inj hl
      rw [Nat.zero_mul, Nat.zero_add, List.getElem?_append_left (by omega)]
    | succ i =>
      rw [List.getElem?_cons_succ] at hl
      rw [List.getElem?_append_right (by rw [ha]; nlinarith), show (i + 1) * w + j - a.length = i * w + j by rw [ha, Nat.succ_mul]; omega]
      exact ih (fun l hl => hw l (List.mem_cons_of_mem _ hl)) i hl

end Verif.Notebooks
