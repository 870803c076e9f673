import Verif.Base.Py
import Verif.Base.SDict
import Mathlib.Data.List.Forall2

/-!
# The loop `ret = SortedDict(); for k in d: ret[k] = f(d[k])`
-/

namespace Verif.SDict
open Verif

variable {K V W : Type} [LinearOrder K]

/-- Building a new dictionary entry by entry with a function that may raise. -/
def mapLoop (f : V → Py W) (d : SDict K V) : Py (SDict K W) :=
  d.foldlM (fun (acc : SDict K W) p => do .ok (acc.set p.1 (← f p.2))) []

/-- Entry by entry: same name, and the value is what `f` returns. -/
def MapsTo (f : V → Py W) (d : SDict K V) (r : SDict K W) : Prop :=
  List.Forall₂ (fun p q => p.1 = q.1 ∧ f p.2 = .ok q.2) d r

omit [LinearOrder K] in
theorem MapsTo.keys {f : V → Py W} {d : SDict K V} {r : SDict K W} (h : MapsTo f d r) :
    SDict.keys r = SDict.keys d := by
  induction h with
  | nil => rfl
  | cons h _ ih => simp only [keys_cons, ih, h.1]

theorem MapsTo.sorted {f : V → Py W} {d : SDict K V} {r : SDict K W} (h : MapsTo f d r)
    (hd : Sorted d) : Sorted r := by
  unfold Sorted; rw [h.keys]; exact hd

theorem MapsTo.get? {f : V → Py W} {d : SDict K V} {r : SDict K W} (h : MapsTo f d r) {k : K} {v : V}
    (hk : SDict.get? d k = some v) : ∃ w, f v = .ok w ∧ SDict.get? r k = some w := by
  induction h with
  | nil => simp at hk
  | @cons p q _ _ h _ ih =>
    obtain ⟨a, b⟩ := p
    obtain ⟨a', b'⟩ := q
    obtain ⟨h1, h2⟩ := h
    simp only at h1 h2
    subst h1
    rw [get?_cons] at hk ⊢
    simp only at hk ⊢
    split
    · next he => rw [if_pos he] at hk; cases hk; exact ⟨b', h2, rfl⟩
    · next he => rw [if_neg he] at hk; exact ih hk

theorem mapLoop_go {f : V → Py W} (d : SDict K V) (acc : SDict K W) (r : SDict K W)
    (hs : (SDict.keys acc ++ SDict.keys d).Pairwise (· < ·)) :
    d.foldlM (fun (acc : SDict K W) p => do .ok (acc.set p.1 (← f p.2))) acc = (.ok r : Py _) ↔
      ∃ r', r = acc ++ r' ∧ MapsTo f d r' := by
  induction d generalizing acc with
  | nil =>
    simp only [List.foldlM_nil, pure, Except.pure, Except.ok.injEq]
    constructor
    · rintro rfl; exact ⟨[], (List.append_nil _).symm, .nil⟩
    · rintro ⟨r', rfl, h⟩; cases h; exact (List.append_nil _).symm
  | cons p d ih =>
    rw [List.foldlM_cons]
    cases hf : f p.2 with
    | error e =>
      constructor
      · intro h; cases h
      · rintro ⟨r', _, h⟩
        cases h with
        | cons h _ => rw [hf] at h; cases h.2
    | ok w =>
      have hlt : ∀ x ∈ SDict.keys acc, x < p.1 := by
        intro x hx
        rw [List.pairwise_append] at hs
        exact hs.2.2 x hx p.1 (by simp)
      change List.foldlM _ (acc.set p.1 w) d = (.ok r : Py _) ↔ _
      rw [set_of_forall_lt hlt, ih]
      · constructor
        · rintro ⟨r', rfl, h⟩
          exact ⟨(p.1, w) :: r', by simp, .cons ⟨rfl, hf⟩ h⟩
        · rintro ⟨r', rfl, h⟩
          cases h with
          | @cons _ q _ r'' h h' =>
            obtain ⟨a, b⟩ := q
            obtain ⟨h1, h2⟩ := h
            rw [hf] at h2
            cases h2
            simp only at h1
            subst h1
            exact ⟨r'', by simp, h'⟩
      · simpa [List.append_assoc] using hs

/-- The loop succeeds with result `r` exactly when `r` is the entry-wise image. -/
theorem mapLoop_ok_iff {f : V → Py W} {d : SDict K V} (hd : Sorted d) (r : SDict K W) :
    mapLoop f d = .ok r ↔ MapsTo f d r := by
  unfold mapLoop
  rw [mapLoop_go d [] r (by rw [keys_nil, List.nil_append]; exact hd)]
  simp

omit [LinearOrder K] in
theorem exists_mapsTo {f : V → Py W} (d : SDict K V) (h : ∀ p ∈ d, ∃ w, f p.2 = .ok w) :
    ∃ r, MapsTo f d r := by
  induction d with
  | nil => exact ⟨[], .nil⟩
  | cons p d ih =>
    obtain ⟨w, hw⟩ := h p (by simp)
    obtain ⟨r, hr⟩ := ih (fun q hq => h q (by simp [hq]))
    exact ⟨(p.1, w) :: r, .cons ⟨rfl, hw⟩ hr⟩

/-- An exception of the loop is an exception of `f` on some entry. -/
theorem mapLoop_error {f : V → Py W} (d : SDict K V) (e : Err) (h : mapLoop f d = .error e) :
    ∃ p ∈ d, f p.2 = .error e := by
  unfold mapLoop at h
  generalize ([] : SDict K W) = acc at h
  induction d generalizing acc with
  | nil => cases h
  | cons p d ih =>
    rw [List.foldlM_cons] at h
    cases hf : f p.2 with
    | error e' =>
      rw [hf] at h
      cases h
      exact ⟨p, by simp, hf⟩
    | ok w =>
      rw [hf] at h
      obtain ⟨q, hq, hq'⟩ := ih _ h
      exact ⟨q, by simp [hq], hq'⟩

end Verif.SDict
