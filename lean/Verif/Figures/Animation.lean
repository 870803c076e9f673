import Verif.Figures.Basic

/-!
# C87: animations show the recorded times in their order

All recordings, validation data, prefixes, directories and file systems.
-/

namespace Verif.Figures
open Verif

variable {F R : Type}

/-! ## A frame -/

/-- What a recording with particles in the plane has: the six quantities at each time, of the shapes that can be drawn. -/
structure Evolves (val : Series R) (s : Six R) (n : ℕ) : Prop where
  shape : Planar val
  lens : s.q1.length = n ∧ s.p1.length = n ∧ s.q2.length = n ∧ s.p2.length = n ∧ s.x1.length = n
  low : ∀ i (hi : i < n), PlanarState (s.q1[i]'(by omega)) (s.p1[i]'(by omega))
  high : ∀ i (hi : i < n), PlanarState (s.q2[i]'(by omega)) (s.p2[i]'(by omega))
  data : ∀ x ∈ s.x1, 0 < x.m ∧ 1 < x.d ∧ val.n ≤ x.n

/-- The recording has the six quantities of a block of that name, at each of its times. -/
structure HasSix (r : Record R) (block : String) (s : Six R) : Prop where
  q1 : r.data.get? (block ++ ".state.q1") = some s.q1
  p1 : r.data.get? (block ++ ".costate.p_q1") = some s.p1
  q2 : r.data.get? (block ++ ".state.q2") = some s.q2
  p2 : r.data.get? (block ++ ".costate.p_q2") = some s.p2
  x1 : r.data.get? (block ++ ".data.q1") = some s.x1
  x2 : r.data.get? (block ++ ".data.q2") = some s.x2 ∧ s.x2.length = r.t.length

/-- The frame of time `i`: the time; all of the validation paths and the computed paths up to this time; particles and momenta at this time; `q2` and its momenta at this time, projected if there are more than two dimensions
and more than one particle. -/
def IsFrame [AddGroup R] (pca : Pca R) (val : Series R) (s : Six R) (t : List R) (i : ℕ) (fr : Frame R) : Prop :=
  t[i]? = some fr.time ∧
  fr.paths = (List.range val.n).map (fun n => (points val n, (s.x1.take (i + 1)).map fun x => (x.elem n 0 0, x.elem n 0 1))) ∧
  (∀ q p, s.q1[i]? = some q → s.p1[i]? = some p → fr.low = (List.range q.n).map fun j => ((q.elem j 0 0, q.elem j 0 1), (p.elem j 0 0, p.elem j 0 1))) ∧
  (∀ q p, s.q2[i]? = some q → s.p2[i]? = some p →
    (q.d = 2 ∨ q.n = 1 → fr.high = (List.range q.n).map fun j => ((q.elem j 0 0, q.elem j 0 1), (p.elem j 0 0, p.elem j 0 1))) ∧
    (2 < q.d → 1 < q.n → fr.high = (List.range q.n).map fun j => (pca ((List.range q.n).map (row q)) (row q j),
        pca ((List.range q.n).map (row q)) (List.zipWith (· + ·) (row q j) (row p j)) - pca ((List.range q.n).map (row q)) (row q j))))

theorem higher_ok [AddGroup R] (pca : Pca R) {q p : Arr3 R} (h : PlanarState q p) : ∃ l, plotHigher pca q p = .ok l ∧
    (q.d = 2 ∨ q.n = 1 → l = (List.range q.n).map fun j => ((q.elem j 0 0, q.elem j 0 1), (p.elem j 0 0, p.elem j 0 1))) ∧
    (2 < q.d → 1 < q.n → l = (List.range q.n).map fun j => (pca ((List.range q.n).map (row q)) (row q j),
        pca ((List.range q.n).map (row q)) (List.zipWith (· + ·) (row q j) (row p j)) - pca ((List.range q.n).map (row q)) (row q j))) := by
  obtain ⟨a1, a2, a3, a4, a5, a6⟩ := id h
  by_cases hc : 2 < q.d ∧ 1 < q.n
  · refine ⟨_, by rw [plotHigher, if_neg (by omega), if_neg (by omega), if_pos hc, if_pos ⟨a2.symm, a6.symm⟩], fun h => by omega, fun _ _ => rfl⟩
  · refine ⟨_, by rw [plotHigher, if_neg (by omega), if_neg (by omega), if_neg hc, arrows_ok h], fun _ => rfl, fun a b => absurd ⟨a, b⟩ hc⟩

theorem upTo_points [Inhabited R] (l : List (Arr3 R)) (i n : ℕ) : points (upTo l i) n = (l.take (i + 1)).map fun x => (x.elem n 0 0, x.elem n 0 1) := by
  refine List.ext_getElem (by simp [points, upTo]) fun k h1 h2 => ?_
  have hk : k < (l.take (i + 1)).length := by simpa using h2
  simp only [points, upTo, List.getElem_map, List.getElem_range, List.getElem?_eq_getElem hk, Option.map_some, Option.getD_some]

theorem frame_ok [AddGroup R] [Inhabited R] (pca : Pca R) {val : Series R} {s : Six R} {t : List R} (h : Evolves val s t.length) {i : ℕ} (hi : i < t.length) :
    ∃ fr, frame pca (some val) s t[i] i = .ok fr ∧ IsFrame pca val s t i fr := by
  obtain ⟨l1, l2, l3, l4, l5⟩ := h.lens
  have e1 : at_ s.q1 i = .ok s.q1[i] := by rw [at_, List.getElem?_eq_getElem]
  have e2 : at_ s.p1 i = .ok s.p1[i] := by rw [at_, List.getElem?_eq_getElem]
  have e3 : at_ s.q2 i = .ok s.q2[i] := by rw [at_, List.getElem?_eq_getElem]
  have e4 : at_ s.p2 i = .ok s.p2[i] := by rw [at_, List.getElem?_eq_getElem]
  have hup : Planar (upTo s.x1 i) ∧ val.n ≤ (upTo s.x1 i).n := by
    cases hx : s.x1 with
    | nil => rw [hx] at l5; simp at l5; omega
    | cons x l =>
      obtain ⟨a, b, c⟩ := h.data x (by simp [hx])
      exact ⟨⟨a, b⟩, c⟩
  have e5 : trajectories (some val) (some (upTo s.x1 i)) none none = .ok ((List.range val.n).map (fun n => (points val n, points (upTo s.x1 i) n)), []) := by
    rw [trajectories, both_ok h.shape hup.1 hup.2]
    rfl
  have e6 : plotParticles s.q1[i] s.p1[i] = _ := arrows_ok (h.low i hi)
  obtain ⟨hl, e7, e8, e9⟩ := higher_ok pca (h.high i hi)
  refine ⟨⟨t[i], (List.range val.n).map (fun n => (points val n, points (upTo s.x1 i) n)), (List.range s.q1[i].n).map (fun j => ((s.q1[i].elem j 0 0, s.q1[i].elem j 0 1), (s.p1[i].elem j 0 0, s.p1[i].elem j 0 1))), hl⟩, ?_, ?_⟩
  · rw [frame, e1, e2, e3, e4, e5]
    dsimp only [bind, Except.bind]
    rw [e6, e7]
  · refine ⟨by simp [hi], by simp only [upTo_points], ?_, ?_⟩
    · intro q p hq hp
      rw [List.getElem?_eq_getElem (by omega)] at hq hp
      cases hq
      cases hp
      rfl
    · intro q p hq hp
      rw [List.getElem?_eq_getElem (by omega)] at hq hp
      cases hq
      cases hp
      exact ⟨e8, e9⟩

/-! ## The files -/

theorem frameName_inj {pre : String} {i j : ℕ} (h : frameName pre i = frameName pre j) : i = j := by
  unfold frameName at h
  have h := congrArg String.toList h
  simp only [String.toList_append, List.append_assoc] at h
  have h := List.append_cancel_left (List.append_cancel_left h)
  exact pad_injective 5 (String.toList_inj.1 (List.append_cancel_right h))

theorem frameName_fits (pre : String) (i : ℕ) : fitsPattern pre (frameName pre i) = true := by
  have e : (frameName pre i).toList = (pre ++ "-").toList ++ ((pad 5 i).toList ++ ".png".toList) := by
    simp only [frameName, String.toList_append, List.append_assoc]
  rw [fitsPattern, e, List.drop_left, Bool.and_eq_true, List.isPrefixOf_iff_prefix, List.isSuffixOf_iff_suffix]
  exact ⟨List.prefix_append _ _, List.suffix_append _ _⟩

theorem frameName_lt {pre : String} {i j : ℕ} (h : i < j) (hj : j < 100000) : frameName pre i < frameName pre j := by
  rw [String.lt_iff_toList_lt]
  simp only [frameName, String.toList_append, List.append_assoc]
  refine lex_append_right (lex_append_right ?_)
  exact lex_append_left (pad_lt (w := 5) (by omega) (by omega) h) (by rw [length_pad (by omega) (by omega), length_pad (by omega) (by omega)]) _ _

/-- The files of the frames. -/
def frameFiles (d pre : String) (fr : ℕ → Frame R) (n : ℕ) : PDict (String × String) (Frame R) := (List.range n).map fun i => ((d, frameName pre i), fr i)

theorem frameFiles_succ (d pre : String) (fr : ℕ → Frame R) (n : ℕ) : frameFiles d pre fr (n + 1) = frameFiles d pre fr n ++ [((d, frameName pre n), fr n)] := by
  simp [frameFiles, List.range_succ]

/-- Before the run the directory has no file that looks like a frame. -/
def Fresh (d pre : String) (files : PDict (String × String) F) : Prop := ∀ n, (d, n) ∈ files.keys → fitsPattern pre n = false

theorem saved_frames [AddGroup R] [Inhabited R] {env : Env} {pca : Pca R} {val : Option (Series R)} {s : Six R} {d pre : String} (hs : ∀ n, env.canSave (d, n) = true) (old : PDict (String × String) (Frame R))
    (ho : Fresh d pre old) (fr : ℕ → Frame R) (l : List R) (k : ℕ) (hf : ∀ x ∈ l.zipIdx k, frame pca val s x.1 x.2 = .ok (fr x.2)) (w : World (Frame R)) (hw : w.files = old ++ frameFiles d pre fr k) :
    each (saveFrame env pca val s d pre) (l.zipIdx k) w = ({ w with files := old ++ frameFiles d pre fr (k + l.length) }, .ok ()) := by
  induction l generalizing k w with
  | nil => simp [each, ← hw]
  | cons a l ih =>
    rw [List.zipIdx_cons, each, saveFrame, hf (a, k) (by simp)]
    dsimp only
    have hnm : (d, frameName pre k) ∉ PDict.keys w.files := by
      rw [hw, PDict.keys_append, List.mem_append, not_or]
      constructor
      · intro hm
        have := ho _ hm
        rw [frameName_fits] at this
        cases this
      · intro hm
        simp only [PDict.keys, frameFiles, List.map_map, List.mem_map, List.mem_range, Function.comp] at hm
        obtain ⟨j, hj, he⟩ := hm
        have := frameName_inj (Prod.mk.inj he).2
        omega
    rw [saveFig, if_pos (hs _), PDict.set_of_not_mem hnm]
    simp only [seq]
    rw [ih (k + 1) (fun x hx => hf x (by rw [List.zipIdx_cons]; exact List.mem_cons_of_mem _ hx)) _ (by rw [hw, frameFiles_succ, List.append_assoc])]
    rw [List.length_cons, show k + 1 + l.length = k + (l.length + 1) by omega]

theorem get?_append (a b : PDict (String × String) F) (k : String × String) (h : k ∉ PDict.keys a) : PDict.get? (a ++ b) k = PDict.get? b k := by
  induction a with
  | nil => rfl
  | cons e a ih =>
    rw [PDict.keys_cons, List.mem_cons, not_or] at h
    rw [List.cons_append, PDict.get?_cons, if_neg (fun he => h.1 he.symm), ih h.2]

theorem get?_frameFiles (d pre : String) (fr : ℕ → Frame R) (n i : ℕ) (hi : i < n) : PDict.get? (frameFiles d pre fr n) (d, frameName pre i) = some (fr i) := by
  refine PDict.get?_eq_some_of_mem ?_ (List.mem_map.2 ⟨i, List.mem_range.2 hi, rfl⟩)
  rw [PDict.keys, frameFiles, List.map_map]
  refine List.Nodup.map_on (fun a _ b _ h => ?_) List.nodup_range
  exact frameName_inj (Prod.mk.inj h).2

theorem globbed_frames (d pre : String) (old : PDict (String × String) (Frame R)) (ho : Fresh d pre old) (fr : ℕ → Frame R) (n : ℕ) (hn : n ≤ 100000) :
    (globbed d pre (old ++ frameFiles d pre fr n)).filterMap (fun f => PDict.get? (old ++ frameFiles d pre fr n) (d, f)) = (List.range n).map fr := by
  have h1 : (((old ++ frameFiles d pre fr n).keys.filter fun p => decide (p.1 = d) && fitsPattern pre p.2).map Prod.snd) = (List.range n).map (frameName pre) := by
    rw [PDict.keys_append, List.filter_append]
    have e1 : (PDict.keys old).filter (fun p => decide (p.1 = d) && fitsPattern pre p.2) = [] := by
      rw [List.filter_eq_nil_iff]
      rintro ⟨a, b⟩ hp
      simp only [Bool.and_eq_true, decide_eq_true_eq, not_and]
      rintro rfl
      simp [ho b hp]
    have e2 : (PDict.keys (frameFiles d pre fr n)).filter (fun p => decide (p.1 = d) && fitsPattern pre p.2) = (List.range n).map fun i => (d, frameName pre i) := by
      rw [PDict.keys, frameFiles, List.map_map, List.filter_eq_self.2]
      · rfl
      · intro p hp
        obtain ⟨i, _, rfl⟩ := List.mem_map.1 hp
        simp [frameName_fits]
    rw [e1, e2, List.nil_append, List.map_map]
    rfl
  unfold globbed
  rw [h1, List.mergeSort_of_pairwise]
  · rw [List.filterMap_map]
    have : ∀ i ∈ List.range n, ((fun f => PDict.get? (old ++ frameFiles d pre fr n) (d, f)) ∘ frameName pre) i = some (fr i) := by
      intro i hi
      simp only [Function.comp]
      rw [get?_append]
      · exact get?_frameFiles d pre fr n i (List.mem_range.1 hi)
      · intro hm
        have := ho _ hm
        rw [frameName_fits] at this
        cases this
    rw [List.filterMap_congr this]
    exact congrFun List.filterMap_eq_map' _
  · rw [List.pairwise_map]
    refine (List.pairwise_lt_range).imp_of_mem fun {a b} ha hb hab => ?_
    simp only [decide_eq_true_eq]
    exact (frameName_lt hab (by have := List.mem_range.1 hb; omega)).le

theorem six_ok {val : Series R} {r : Record R} {block : String} {s : Six R} (hr : HasSix r block s) (he : Evolves val s r.t.length) (ht : 0 < r.t.length) : six r block = .ok s := by
  have key : ∀ k l, r.data.get? k = some l → l.length = r.t.length → series r k = .ok l := by
    intro k l hk hl
    rw [series, hk, Option.getD_some]
    cases l with
    | nil => simp at hl; omega
    | cons a l => rfl
  obtain ⟨l1, l2, l3, l4, l5⟩ := he.lens
  rw [six, key _ _ hr.q1 l1, key _ _ hr.p1 l2, key _ _ hr.q2 l3, key _ _ hr.p2 l4, key _ _ hr.x1 l5, key _ _ hr.x2.1 hr.x2.2]
  rfl

/-- **C87.** The animation of up to a hundred thousand times, in a directory without earlier frames: its frames are the recorded times, each once and in their order. -/
theorem C87_animation [AddGroup R] [Inhabited R] (env : Env) (pca : Pca R) (val : Series R) (r : Record R) (block d pre : String) (maxDisplay : ℕ) (w : World (Frame R)) (s : Six R)
    (hr : HasSix r block s) (he : Evolves val s r.t.length) (ht : 0 < r.t.length) (hT : r.t.length ≤ 100000) (hw : Writable env d w) (hf : Fresh d pre w.files) (hc : env.convert = true) :
    ∃ w' frames, timeEvolution env pca (some val) r block maxDisplay (some d) pre w = (w', .ok ()) ∧ w'.gifs.get? ("animated-" ++ pre ++ ".gif") = some frames ∧ frames.length = r.t.length ∧
      (∀ i fr, frames[i]? = some fr → IsFrame pca val s r.t i fr) ∧ w'.shown = w.shown ∧ ∀ p, p ∉ (List.range r.t.length).map (fun i => (d, frameName pre i)) → w'.files.get? p = w.files.get? p := by
  have hsix := six_ok hr he ht
  have hall : ∀ i : ℕ, ∃ fr : Frame R, ∀ hi : i < r.t.length, frame pca (some val) s r.t[i] i = .ok fr ∧ IsFrame pca val s r.t i fr := by
    intro i
    by_cases hi : i < r.t.length
    · obtain ⟨fr, a, b⟩ := frame_ok pca he hi
      exact ⟨fr, fun _ => ⟨a, b⟩⟩
    · obtain ⟨fr, _⟩ := frame_ok pca he ht
      exact ⟨fr, fun h => absurd h hi⟩
  choose fr hfr using hall
  obtain ⟨w1, a1, a2, a3, a4⟩ : ∃ w1, makeDir env d w = (w1, .ok ()) ∧ w1.files = w.files ∧ w1.shown = w.shown ∧ w1.gifs = w.gifs := by
    unfold makeDir
    by_cases hd : d ∈ w.dirs
    · exact ⟨w, by rw [if_pos hd], rfl, rfl, rfl⟩
    · exact ⟨{ w with dirs := w.dirs ++ [d] }, by rw [if_neg hd, if_pos (hw.1.resolve_left hd)], rfl, rfl, rfl⟩
  have hloop := saved_frames (env := env) (pca := pca) (val := some val) (s := s) hw.2 w.files hf fr r.t 0 (fun x hx => by
    obtain ⟨a, i⟩ := x
    have := List.mem_zipIdx' hx
    obtain ⟨hi, ha⟩ := this
    dsimp only
    rw [ha]
    exact (hfr i hi).1) w1 (by rw [a2]; simp [frameFiles])
  rw [Nat.zero_add] at hloop
  refine ⟨{ w1 with
      files := w.files ++ frameFiles d pre fr r.t.length
      gifs := w1.gifs.set ("animated-" ++ pre ++ ".gif") ((globbed d pre (w.files ++ frameFiles d pre fr r.t.length)).filterMap fun f => PDict.get? (w.files ++ frameFiles d pre fr r.t.length) (d, f)) },
    (List.range r.t.length).map fr, ?_, ?_, by simp, ?_, a3, ?_⟩
  · unfold timeEvolution
    rw [hsix]
    dsimp only
    rw [a1]
    simp only [seq]
    rw [show (r.t.zipIdx) = r.t.zipIdx 0 from rfl, hloop]
    dsimp only
    rw [animate, if_pos hc]
  · dsimp only
    rw [PDict.get?_set, if_pos rfl, globbed_frames d pre w.files hf fr _ hT]
  · intro i f hif
    rw [List.getElem?_map] at hif
    by_cases hi : i < r.t.length
    · rw [List.getElem?_range hi] at hif
      simp only [Option.map_some, Option.some.injEq] at hif
      exact hif ▸ (hfr i hi).2
    · rw [List.getElem?_eq_none (by simpa using hi)] at hif
      cases hif
  · intro p hp
    dsimp only
    have hnm : p ∉ PDict.keys (frameFiles d pre fr r.t.length) := by
      rw [PDict.keys, frameFiles, List.map_map]
      exact hp
    cases hg : PDict.get? w.files p with
    | none =>
      have := PDict.get?_eq_none_iff.1 hg
      rw [get?_append _ _ _ this]
      exact PDict.get?_eq_none_iff.2 hnm
    | some v =>
      clear hloop
      generalize w.files = o at hg
      induction o with
      | nil => cases hg
      | cons e o ih =>
        rw [PDict.get?_cons] at hg
        rw [List.cons_append, PDict.get?_cons]
        by_cases hk : e.1 = p
        · rw [if_pos hk] at hg ⊢; exact hg
        · rw [if_neg hk] at hg ⊢; exact ih hg

/-- **C87 fails for longer recordings**: the frame with number 100000 comes before the one with number 10001. -/
theorem C87_order_lost (pre : String) : frameName pre 100000 < frameName pre 10001 := by
  rw [String.lt_iff_toList_lt]
  simp only [frameName, String.toList_append, List.append_assoc]
  refine lex_append_right (lex_append_right ?_)
  decide +kernel

/-- **C87 fails in a directory with frames of an earlier run** (`visualize_time_evolution` only warns): a file that looks like a frame and is not overwritten becomes part of the animation. -/
theorem C87_leftover (env : Env) (d pre out n : String) (f : F) (w : World F) (hc : env.convert = true) (hg : w.files.get? (d, n) = some f) (hn : fitsPattern pre n = true) :
    ∃ frames, (animate env d pre out w).1.gifs.get? out = some frames ∧ f ∈ frames := by
  refine ⟨_, by rw [animate, if_pos hc]; dsimp only; rw [PDict.get?_set, if_pos rfl], ?_⟩
  rw [List.mem_filterMap]
  refine ⟨n, ?_, hg⟩
  rw [globbed, List.mem_mergeSort, List.mem_map]
  refine ⟨(d, n), List.mem_filter.2 ⟨?_, by simp [hn]⟩, rfl⟩
  by_contra h
  rw [PDict.get?_eq_none_iff.2 h] at hg
  cases hg

theorem shown_frames [AddGroup R] [Inhabited R] (pca : Pca R) (val : Series R) (s : Six R) (t : List R) (maxDisplay : ℕ) (w : World (Frame R)) (he : Evolves val s t.length) :
    ∃ frames, showFrames pca (some val) s maxDisplay t.zipIdx w = ({ w with shown := w.shown ++ frames }, .ok ()) ∧ frames.length = min t.length (maxDisplay + 1) ∧
      ∀ i fr, frames[i]? = some fr → IsFrame pca val s t i fr := by
  have key : ∀ (l : List R) (k : ℕ) (w : World (Frame R)), k ≤ maxDisplay → t.drop k = l → ∃ frames, showFrames pca (some val) s maxDisplay (l.zipIdx k) w = ({ w with shown := w.shown ++ frames }, .ok ()) ∧
      frames.length = min l.length (maxDisplay + 1 - k) ∧ ∀ i fr, frames[i]? = some fr → IsFrame pca val s t (k + i) fr := by
    intro l
    induction l with
    | nil => exact fun k w _ _ => ⟨[], by simp [showFrames], by simp, by simp⟩
    | cons a l ih =>
      intro k w hk hl
      have hkt : k < t.length := by
        by_contra h
        rw [List.drop_eq_nil_of_le (by omega)] at hl
        cases hl
      rw [List.drop_eq_getElem_cons hkt] at hl
      injection hl with ha hl
      obtain ⟨fr, f1, f2⟩ := frame_ok pca he hkt
      rw [ha] at f1
      rw [List.zipIdx_cons, showFrames, f1]
      dsimp only
      by_cases hm : maxDisplay ≤ k
      · refine ⟨[fr], by rw [if_pos hm], ?_, ?_⟩
        · simp only [List.length_cons, List.length_nil]; omega
        · intro i f hf
          cases i with
          | zero => simp at hf; exact hf ▸ f2
          | succ i => simp at hf
      · obtain ⟨frames, g1, g2, g3⟩ := ih (k + 1) { w with shown := w.shown ++ [fr] } (by omega) hl
        refine ⟨fr :: frames, ?_, ?_, ?_⟩
        · rw [if_neg hm, g1]; simp
        · simp only [List.length_cons, g2]; omega
        · intro i f hf
          cases i with
          | zero => simp at hf; exact hf ▸ f2
          | succ i =>
            have := g3 i f (by simpa using hf)
            rwa [show k + 1 + i = k + (i + 1) by omega] at this
  obtain ⟨frames, g1, g2, g3⟩ := key t 0 w (Nat.zero_le _) rfl
  exact ⟨frames, g1, g2, fun i fr h => by simpa using g3 i fr h⟩

/-- **C87.** On the screen: the first times are shown in their order, one more than `max_display` if there are so many; nothing is saved. -/
theorem C87_shown [AddGroup R] [Inhabited R] (env : Env) (pca : Pca R) (val : Series R) (r : Record R) (block pre : String) (maxDisplay : ℕ) (w : World (Frame R)) (s : Six R) (hr : HasSix r block s)
    (he : Evolves val s r.t.length) (ht : 0 < r.t.length) :
    ∃ frames, timeEvolution env pca (some val) r block maxDisplay none pre w = ({ w with shown := w.shown ++ frames }, .ok ()) ∧ frames.length = min r.t.length (maxDisplay + 1) ∧
      ∀ i fr, frames[i]? = some fr → IsFrame pca val s r.t i fr := by
  rw [timeEvolution, six_ok hr he ht]
  exact shown_frames pca val s r.t maxDisplay w he

/-- **C87.** If one of the six quantities is not recorded under the name of the block (a model without `q2`, a mode without particles, another block name), the result is an `IndexError` and nothing is shown or saved. -/
theorem C87_not_recorded [AddGroup R] [Inhabited R] (env : Env) (pca : Pca R) (val : Option (Series R)) (r : Record R) (block pre : String) (maxDisplay : ℕ) (dir : Option String) (w : World (Frame R))
    (h : ∃ k ∈ [".state.q1", ".costate.p_q1", ".state.q2", ".costate.p_q2", ".data.q1", ".data.q2"], r.data.get? (block ++ k) = none) :
    timeEvolution env pca val r block maxDisplay dir pre w = (w, .error .indexError) := by
  have hs : six r block = .error .indexError := by
    have hn : ∀ k, r.data.get? k = none → series r k = .error .indexError := fun k hk => by rw [series, hk]; rfl
    have hc : ∀ k, (∃ l, series r k = .ok l) ∨ series r k = .error .indexError := by
      intro k
      unfold series
      split
      · exact .inr rfl
      · exact .inl ⟨_, rfl⟩
    unfold six
    obtain ⟨k, hk, h⟩ := h
    have hk' := hn _ h
    rcases hc (block ++ ".state.q1") with ⟨_, c1⟩ | c1 <;> rw [c1] <;> [skip; rfl]
    rcases hc (block ++ ".costate.p_q1") with ⟨_, c2⟩ | c2 <;> rw [c2] <;> [skip; rfl]
    rcases hc (block ++ ".state.q2") with ⟨_, c3⟩ | c3 <;> rw [c3] <;> [skip; rfl]
    rcases hc (block ++ ".costate.p_q2") with ⟨_, c4⟩ | c4 <;> rw [c4] <;> [skip; rfl]
    rcases hc (block ++ ".data.q1") with ⟨_, c5⟩ | c5 <;> rw [c5] <;> [skip; rfl]
    rcases hc (block ++ ".data.q2") with ⟨_, c6⟩ | c6 <;> rw [c6] <;> [skip; rfl]
    simp only [List.mem_cons, List.not_mem_nil, or_false] at hk
    exfalso
    rcases hk with rfl | rfl | rfl | rfl | rfl | rfl
    · rw [c1] at hk'; cases hk'
    · rw [c2] at hk'; cases hk'
    · rw [c3] at hk'; cases hk'
    · rw [c4] at hk'; cases hk'
    · rw [c5] at hk'; cases hk'
    · rw [c6] at hk'; cases hk'
  rw [timeEvolution, hs]

/-! ## The hypotheses are met -/

def demoSix : Six ℚ :=
  let a : List (Arr3 ℚ) := (List.range 3).map fun i => ⟨2, 1, 3, fun j _ k => i + j + k⟩
  ⟨a, a, a, a, a, a⟩

def demoRecord : Record ℚ :=
  ⟨[0, 1 / 2, 1], [("simple.state.q1", demoSix.q1), ("simple.costate.p_q1", demoSix.q1), ("simple.state.q2", demoSix.q1), ("simple.costate.p_q2", demoSix.q1), ("simple.data.q1", demoSix.q1), ("simple.data.q2", demoSix.q1)]⟩

theorem demo_evolves : Evolves demoSeries demoSix 3 where
  shape := by unfold Planar; decide
  lens := by decide
  low := by
    intro i hi
    simp [demoSix, PlanarState]
  high := by
    intro i hi
    simp [demoSix, PlanarState]
  data := by
    intro x hx
    simp only [demoSix, List.mem_map] at hx
    obtain ⟨i, _, rfl⟩ := hx
    exact ⟨Nat.one_pos, (by decide : 1 < 3), (by decide : demoSeries.n ≤ 2)⟩

/-- An animation with three frames. -/
example : ∃ w' frames, timeEvolution demoEnv (fun _ _ => (0, 0)) (some demoSeries) demoRecord "simple" 10 (some "result") "evolution" demoWorld = (w', .ok ()) ∧
    w'.gifs.get? "animated-evolution.gif" = some frames ∧ frames.length = 3 := by
  obtain ⟨w', frames, h1, h2, h3, _⟩ := C87_animation demoEnv (fun _ _ => (0, 0)) demoSeries demoRecord "simple" "result" "evolution" 10 demoWorld demoSix ⟨rfl, rfl, rfl, rfl, rfl, rfl, rfl⟩ demo_evolves (by decide) (by decide)
    ⟨.inr rfl, fun _ => rfl⟩ (by intro n h; cases h) rfl
  exact ⟨w', frames, h1, h2, h3⟩

/-- Two of the three times with `max_display = 1`. -/
example : (showFrames (fun _ _ => (0, 0)) (some demoSeries) demoSix 1 demoRecord.t.zipIdx demoWorld).1.shown.map Frame.time = [0, 1 / 2] := by decide +kernel

/-- A frame of an earlier, longer run. -/
example : fitsPattern "evolution" "evolution-00009.png" = true ∧ fitsPattern "evolution" "evolution.png" = false := by decide

end Verif.Figures
