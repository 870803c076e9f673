import Verif.Whole.Model
import Verif.Whole.Spec
import Verif.Base.TensorLemmas
import Verif.Concat.Lemmas
import Verif.Flow.Props

/-!
# Lemmas about tensors made from functions
-/

namespace Verif.Whole
open Verif Verif.Tensor Verif.Assembly Verif.Evolution

section Tab
variable {α β : Type}

/-- An index of a tensor of shape `s`. -/
def Valid (s idx : List Nat) : Prop := List.Forall₂ (· < ·) idx s

/-- All indices in row-major order. -/
def indices (s : List Nat) : List (List Nat) := tabData s id

theorem tabData_map (s : List Nat) (f : List Nat → α) (g : α → β) : (tabData s f).map g = tabData s fun i => g (f i) := by
  induction s generalizing f with
  | nil => rfl
  | cons n s ih => simp only [tabData, List.map_flatMap, ih]

theorem tabData_eq (s : List Nat) (f : List Nat → α) : tabData s f = (indices s).map f := (tabData_map s id f).symm

theorem tabData_length (s : List Nat) (f : List Nat → α) : (tabData s f).length = vol s := by
  induction s generalizing f with
  | nil => rfl
  | cons n s ih => simp [tabData, ih, vol]

theorem indices_length (s : List Nat) : (indices s).length = vol s := tabData_length s id

theorem tab_wf (s : List Nat) (f : List Nat → α) : (tab s f).WF := tabData_length s f

theorem indices_cons (n : Nat) (s : List Nat) : indices (n :: s) = (List.range n).flatMap fun i => (indices s).map fun idx => i :: idx := by
  unfold indices
  rw [tabData]
  simp only [tabData_map, id_eq]

theorem mem_indices (s idx : List Nat) : idx ∈ indices s ↔ Valid s idx := by
  induction s generalizing idx with
  | nil =>
    unfold Valid indices tabData
    constructor
    · intro h
      simp at h
      subst h
      exact .nil
    · intro h
      cases h
      simp
  | cons n s ih =>
    rw [indices_cons, List.mem_flatMap]
    constructor
    · rintro ⟨i, hi, h⟩
      obtain ⟨l, hl, rfl⟩ := List.mem_map.1 h
      exact .cons (List.mem_range.1 hi) ((ih l).1 hl)
    · intro h
      cases h with
      | cons h1 h2 => exact ⟨_, List.mem_range.2 h1, List.mem_map.2 ⟨_, (ih _).2 h2, rfl⟩⟩

theorem tabData_congr {s : List Nat} {f g : List Nat → α} (h : ∀ idx, Valid s idx → f idx = g idx) : tabData s f = tabData s g := by
  rw [tabData_eq, tabData_eq]
  exact List.map_congr_left fun idx hi => h idx ((mem_indices s idx).1 hi)

theorem nodup_indices (s : List Nat) : (indices s).Nodup := by
  induction s with
  | nil => simp [indices, tabData]
  | cons n s ih =>
    rw [indices_cons, List.nodup_flatMap]
    refine ⟨fun i _ => ih.map fun a b h => (List.cons.inj h).2, ?_⟩
    refine List.nodup_range.imp ?_
    intro i j hij l h1 h2
    obtain ⟨a, _, rfl⟩ := List.mem_map.1 h1
    obtain ⟨b, _, hb⟩ := List.mem_map.1 h2
    exact hij (List.cons.inj hb).1.symm

theorem getData?_tabData (s : List Nat) (f : List Nat → α) (idx : List Nat) (h : Valid s idx) : getData? s (tabData s f) idx = some (f idx) := by
  induction s generalizing f idx with
  | nil => cases h; rfl
  | cons n s ih =>
    cases h with
    | @cons i _ is _ h1 h2 =>
      simp only [getData?, h1, if_true, tabData]
      rw [List.flatMap_def]
      have hl : ((List.range n).map fun i => tabData s fun idx => f (i :: idx)).length = n := by simp
      have hr := rows_flatten (vol s) ((List.range n).map fun i => tabData s fun idx => f (i :: idx)) (by
        intro x hx
        obtain ⟨j, _, rfl⟩ := List.mem_map.1 hx
        exact tabData_length _ _)
      rw [hl] at hr
      have hi : i < (rows (vol s) n ((List.range n).map fun i => tabData s fun idx => f (i :: idx)).flatten).length := by simpa using h1
      have hg := rows_getElem _ _ _ i hi
      rw [← hg]
      simp only [hr]
      simp only [List.getElem_map, List.getElem_range]
      exact ih _ _ h2

theorem get?_tab {s : List Nat} {f : List Nat → α} {idx : List Nat} (h : Valid s idx) : (tab s f).get? idx = some (f idx) :=
  getData?_tabData s f idx h

theorem valid_iff (s idx : List Nat) : Valid s idx ↔ idx.length = s.length ∧ ∀ k, k < s.length → idx.getD k 0 < dimSize s k := by
  rw [← getData?_isSome_iff s (tabData s fun _ => ()) (tabData_length _ _) idx]
  constructor
  · intro h
    rw [getData?_tabData _ _ _ h]
    rfl
  · intro h
    rw [getData?_isSome_iff _ _ (tabData_length _ _)] at h
    obtain ⟨h1, h2⟩ := h
    unfold Valid
    rw [List.forall₂_iff_get]
    refine ⟨h1, fun i hi hi' => ?_⟩
    have := h2 i hi'
    simpa [dimSize, List.getD_eq_getElem?_getD, hi, hi'] using this

/-- A well-formed tensor is the tensor of its elements. -/
theorem tab_get? {t : Tensor α} (ht : t.WF) (z : α) : tab t.shape (fun idx => (t.get? idx).getD z) = t := by
  obtain ⟨s, d⟩ := t
  unfold tab
  congr 1
  apply data_ext s _ _ (tabData_length _ _) ht
  intro idx
  by_cases h : Valid s idx
  · rw [getData?_tabData _ _ _ h]
    have : (getData? s d idx).isSome := (getData?_isSome_iff s d ht idx).2 ((valid_iff s idx).1 h)
    obtain ⟨v, hv⟩ := Option.isSome_iff_exists.1 this
    simp [Tensor.get?, hv]
  · have h1 : getData? s (tabData s fun idx => (Tensor.get? ⟨s, d⟩ idx).getD z) idx = none := by
      rw [← Option.not_isSome_iff_eq_none, getData?_isSome_iff _ _ (tabData_length _ _), ← valid_iff]
      exact h
    have h2 : getData? s d idx = none := by
      rw [← Option.not_isSome_iff_eq_none, getData?_isSome_iff _ _ ht, ← valid_iff]
      exact h
    rw [h1, h2]

end Tab

/-! ## Layouts -/

variable {K P R : Type}

/-- Names and coordinates correspond to each other. -/
structure Lay.Ok (L : Lay K) : Prop where
  sorted : SDict.Sorted L.names
  ne : L.names ≠ []
  into : ∀ k, ∃ s, (L.key k, s) ∈ L.names ∧ Valid s (L.idx k) ∧ L.coord (L.key k) (L.idx k) = some k
  onto : ∀ e ∈ L.names, ∀ idx, Valid e.2 idx → ∃ k, L.coord e.1 idx = some k ∧ L.key k = e.1 ∧ L.idx k = idx

/-- A dictionary with `n` rows. -/
def HasRows (L : Lay K) (pre : String) (n : Nat) (d : Concat.TDict ℝ) : Prop :=
  GoodDict d ∧ (d.map fun e => (e.1, e.2.shape)) = L.names.map fun e => (pre ++ e.1, n :: e.2)

theorem pre_lt {pre a b : String} (h : a < b) : pre ++ a < pre ++ b := by
  rw [String.lt_iff_toList_lt, String.toList_append, String.toList_append]
  exact List.append_left_lt (String.lt_iff_toList_lt.1 h)

theorem pre_inj {pre a b : String} (h : pre ++ a = pre ++ b) : a = b := by
  have := congrArg String.toList h
  rw [String.toList_append, String.toList_append] at this
  exact String.toList_inj.1 (List.append_cancel_left this)

theorem sorted_pre {V W : Type} (l : SDict String V) (h : SDict.Sorted l) (pre : String) (f : String × V → W) :
    SDict.Sorted (l.map fun e => (pre ++ e.1, f e) : SDict String W) := by
  unfold SDict.Sorted SDict.keys at h ⊢
  rw [List.map_map]
  rw [List.pairwise_map] at h ⊢
  exact h.imp fun h => pre_lt h

theorem enc_sorted {L : Lay K} (hL : L.Ok) (pre : String) (n : Nat) (x : Fin n × K → ℝ) : SDict.Sorted (enc L pre n x) :=
  sorted_pre L.names hL.sorted pre _

theorem enc_shapes (L : Lay K) (pre : String) (n : Nat) (x : Fin n × K → ℝ) :
    (enc L pre n x).map (fun e => (e.1, e.2.shape)) = L.names.map fun e => (pre ++ e.1, n :: e.2) := by
  unfold enc
  rw [List.map_map]
  rfl

theorem enc_hasRows {L : Lay K} (hL : L.Ok) (pre : String) (n : Nat) (x : Fin n × K → ℝ) : HasRows L pre n (enc L pre n x) := by
  refine ⟨⟨enc_sorted hL pre n x, ?_⟩, enc_shapes L pre n x⟩
  intro e he
  obtain ⟨e', _, rfl⟩ := List.mem_map.1 he
  exact ⟨tab_wf _ _, by simp [tab]⟩

theorem enc_get? {L : Lay K} (hL : L.Ok) (pre : String) (n : Nat) (x : Fin n × K → ℝ) {e : String × List Nat} (he : e ∈ L.names) :
    SDict.get? (enc L pre n x) (pre ++ e.1) = some (tab (n :: e.2) (value L n x e.1)) :=
  (SDict.get?_eq_some_iff (enc_sorted hL pre n x)).2 (List.mem_map.2 ⟨e, he, rfl⟩)

theorem value_coord {L : Lay K} {n : Nat} (x : Fin n × K → ℝ) {name : String} {idx : List Nat} {k : K} (h : L.coord name idx = some k) (i : Fin n) :
    value L n x name (i.1 :: idx) = x (i, k) := by
  simp [value, h]

/-- The element of a tensor of the dictionary at row `i` and the index of a coordinate. -/
theorem enc_element {L : Lay K} (hL : L.Ok) (pre : String) (n : Nat) (x : Fin n × K → ℝ) (i : Fin n) (k : K) :
    ((SDict.get? (enc L pre n x) (pre ++ L.key k)).bind fun t => t.get? (i.1 :: L.idx k)) = some (x (i, k)) := by
  obtain ⟨s, hs, hv, hc⟩ := hL.into k
  rw [enc_get? hL pre n x hs, Option.bind_some, get?_tab (.cons i.2 hv), value_coord x hc]

theorem dec_enc {L : Lay K} (hL : L.Ok) (pre : String) (n : Nat) (x : Fin n × K → ℝ) : dec L pre n (enc L pre n x) = x := by
  funext k
  unfold dec
  rw [enc_element hL]
  rfl

theorem enc_dec {L : Lay K} (hL : L.Ok) {pre : String} {n : Nat} {d : Concat.TDict ℝ} (hd : HasRows L pre n d) : enc L pre n (dec L pre n d) = d := by
  obtain ⟨⟨hs, hw⟩, hsh⟩ := hd
  have hlen : d.length = L.names.length := by simpa using congrArg List.length hsh
  apply List.ext_getElem
  · simp [enc, hlen]
  intro i h1 h2
  have hi : i < L.names.length := by omega
  have hme : L.names[i] ∈ L.names := List.getElem_mem _
  have hmd : d[i] ∈ d := List.getElem_mem _
  have he : (d[i].1, d[i].2.shape) = (pre ++ L.names[i].1, n :: L.names[i].2) := by
    have := List.getElem_of_eq hsh (i := i) (by simpa using h2)
    simpa using this
  obtain ⟨e1, e2⟩ := Prod.mk.inj he
  have : (enc L pre n (dec L pre n d))[i] = (pre ++ L.names[i].1, tab (n :: L.names[i].2) (value L n (dec L pre n d) L.names[i].1)) := by
    simp [enc]
  rw [this]
  apply Prod.ext
  · exact e1.symm
  · rw [← tab_get? (hw _ hmd).1 0, e2]
    refine congrArg (Tensor.mk _) ?_
    apply tabData_congr
    intro idx hv
    cases hv with
    | @cons a _ as _ ha hv =>
      obtain ⟨k, hk, hk1, hk2⟩ := hL.onto _ hme as hv
      rw [value_coord (dec L pre n d) hk ⟨a, ha⟩]
      unfold dec
      have hget : SDict.get? d d[i].1 = some d[i].2 := (SDict.get?_eq_some_iff hs).2 hmd
      rw [hk1, ← e1, hget, Option.bind_some, hk2]

theorem dec_inj {L : Lay K} (hL : L.Ok) {pre : String} {n : Nat} {x y : Fin n × K → ℝ} (h : enc L pre n x = enc L pre n y) : x = y := by
  rw [← dec_enc hL pre n x, h, dec_enc hL]

/-! ## Reading -/

theorem readRows_enc {L : Lay K} (hL : L.Ok) (pre : String) (n : Nat) (x : Fin n × K → ℝ) : readRows L pre n (enc L pre n x) = .ok x := by
  unfold readRows
  rw [if_neg, if_pos, dec_enc hL]
  · unfold hasRows
    rw [List.all_eq_true]
    intro e he
    rw [enc_get? hL pre n x he]
    simp [tab]
  · intro h
    obtain ⟨e, he, h⟩ := List.any_eq_true.1 h
    rw [enc_get? hL pre n x he] at h
    cases h

theorem rowCount_enc {L : Lay K} (hL : L.Ok) (pre : String) (n : Nat) (x : Fin n × K → ℝ) : rowCount L pre (enc L pre n x) = n := by
  unfold rowCount
  obtain ⟨e, l, hl⟩ := List.exists_cons_of_ne_nil hL.ne
  have : L.names.head? = some e := by rw [hl]; rfl
  rw [this, Option.bind_some, enc_get? hL pre n x (by rw [hl]; simp)]
  rfl

end Verif.Whole
