import Verif.Figures.Model
import Verif.Figures.Spec
import Mathlib.Data.List.Perm.Basic
import Mathlib.Data.List.Flatten

/-!
# Lemmas about lines, loops, settings and files
-/

namespace Verif.Figures
open Verif

variable {F R : Type}

/-! ## Lines -/

theorem places_squeeze (s : List ℕ) : places s = (places (s.filter (· ≠ 1))).map (unsqueeze s) := by
  induction s with
  | nil => rfl
  | cons a s ih =>
    by_cases h : a = 1
    · subst h
      rw [List.filter_cons_of_neg (by simp), places, ih]
      simp only [List.range_one, List.flatMap_cons, List.flatMap_nil, List.append_nil, List.map_map]
      rfl
    · rw [List.filter_cons_of_pos (by simpa using h), places, places, List.map_flatMap, ih]
      simp only [List.map_map]
      congr 1
      funext i
      congr 1
      funext js
      simp [unsqueeze, h]

theorem flatMap_swap {α β γ : Type} (l : List α) (m : List β) (f : α → β → γ) :
    (l.flatMap fun a => m.map (f a)).Perm (m.flatMap fun b => l.map fun a => f a b) := by
  induction l with
  | nil => simp
  | cons a l ih =>
    rw [List.flatMap_cons]
    refine (ih.append_left _).trans ?_
    exact List.map_append_flatMap_perm m (f a) fun b => l.map fun a => f a b

theorem flatMap_one {α β : Type} (l : List α) (f : α → β) : (l.flatMap fun a => [f a]) = l.map f := by
  induction l with
  | nil => rfl
  | cons a l ih => rw [List.flatMap_cons, ih]; rfl

theorem places_one (a : ℕ) : places [a] = (List.range a).map fun j => [j] := by
  rw [places]
  exact flatMap_one _ _

theorem places_two (a b : ℕ) : places [a, b] = (List.range a).flatMap fun i => (List.range b).map fun j => [i, j] := by
  rw [places, places_one]
  simp only [List.map_map]
  rfl

theorem stack_shape [Inhabited R] {vals : List (Arr R)} {s : List ℕ} (hv : vals ≠ []) (hs : ∀ a ∈ vals, a.shape = s) : (stack vals).shape = vals.length :: s := by
  cases vals with
  | nil => exact absurd rfl hv
  | cons a l => simp [stack, hs a (by simp)]

/-- The value of a recorded quantity at a place, over time. -/
def valueAt [Inhabited R] (vals : List (Arr R)) (js : List ℕ) (i : ℕ) : R := (vals[i]?.map fun a => a.elem js).getD default

theorem mapM_ok {α β : Type} (l : List α) (f : α → Py β) (g : α → β) (h : ∀ a ∈ l, f a = .ok (g a)) : l.mapM f = .ok (l.map g) := by
  induction l with
  | nil => rfl
  | cons a l ih =>
    rw [List.mapM_cons, h a (by simp), ih fun b hb => h b (by simp [hb])]
    rfl

/-- The curve of a quantity with values `x 0`, `x 1`, ... at the times `t`. -/
def curveOf (t : List R) (x : ℕ → R) : List (R × R) := t.zipIdx.map fun a => (a.1, x a.2)

theorem curveOf_eq [Inhabited R] {t : List R} {vals : List (Arr R)} (hl : vals.length = t.length) (js : List ℕ) : curveOf t (valueAt vals js) = t.zip (vals.map fun a => a.elem js) := by
  refine List.ext_getElem (by simp [curveOf, hl]) fun i h1 h2 => ?_
  have hi : i < vals.length := by simp [curveOf] at h1; omega
  simp [curveOf, valueAt, hi]

theorem curves_ok [Inhabited R] {t : List R} {vals : List (Arr R)} {s : List ℕ} (hT : 2 ≤ t.length) (hl : vals.length = t.length) (hs : ∀ a ∈ vals, a.shape = s) (hw : width s ≤ 2) :
    ∃ l, curves t vals = .ok l ∧ l.Perm ((places s).map fun js => t.zip (vals.map fun a => a.elem js)) := by
  simp only [← curveOf_eq hl]
  have hv : vals ≠ [] := by rintro rfl; simp at hl; omega
  have hsh : (squeeze (stack vals)).shape = t.length :: s.filter (· ≠ 1) := by
    rw [squeeze, stack_shape hv hs, hl, List.filter_cons_of_pos]
    simp only [decide_eq_true_eq]
    omega
  have hel : ∀ i js, (squeeze (stack vals)).elem (i :: js) = valueAt vals (unsqueeze s js) i := by
    intro i js
    show (stack vals).elem (unsqueeze (stack vals).shape (i :: js)) = _
    rw [stack_shape hv hs, unsqueeze, if_neg (by omega)]
    rfl
  rw [places_squeeze]
  unfold width at hw
  cases hf : s.filter (· ≠ 1) with
  | nil =>
    rw [hf] at hsh
    refine ⟨[curveOf t (valueAt vals (unsqueeze s []))], ?_, List.Perm.refl _⟩
    unfold curves
    dsimp only
    rw [hsh]
    dsimp only
    unfold plotLines
    rw [hsh]
    dsimp only
    rw [if_pos rfl]
    simp only [hel]
    rfl
  | cons a f =>
    cases f with
    | nil =>
      rw [hf] at hsh
      refine ⟨(List.range a).map fun j => curveOf t (valueAt vals (unsqueeze s [j])), ?_, ?_⟩
      · unfold curves
        dsimp only
        rw [hsh]
        dsimp only
        unfold plotLines
        rw [hsh]
        dsimp only
        rw [if_pos rfl]
        simp only [hel]
        rfl
      · rw [places_one, List.map_map, List.map_map]
        exact List.Perm.refl _
    | cons b f =>
      cases f with
      | cons c f => rw [hf] at hw; simp at hw
      | nil =>
        rw [hf] at hsh
        refine ⟨(List.range b).flatMap fun d => (List.range a).map fun j => curveOf t (valueAt vals (unsqueeze s [j, d])), ?_, ?_⟩
        · unfold curves
          dsimp only
          rw [hsh]
          dsimp only
          rw [mapM_ok (List.range b) _ (fun d => (List.range a).map fun j => curveOf t (valueAt vals (unsqueeze s [j, d])))]
          · rfl
          · intro d _
            unfold plotLines
            dsimp only
            rw [if_pos rfl]
            simp only [List.cons_append, List.nil_append, hel]
            rfl
        · refine (flatMap_swap _ _ fun d j => curveOf t (valueAt vals (unsqueeze s [j, d]))).trans ?_
          rw [places_two]
          simp only [List.map_flatMap, List.map_map]
          exact List.Perm.refl _

theorem energy_ok [Inhabited R] {t x : List R} (hl : x.length = t.length) : plotLines t (stack (x.map scalar)) = .ok [t.zip x] := by
  have hsh : (stack (x.map scalar)).shape = [t.length] := by
    cases x with
    | nil => simp at hl; simp [stack, ← hl]
    | cons a x => simp [stack, scalar, ← hl]
  unfold plotLines
  rw [hsh]
  dsimp only
  rw [if_pos rfl]
  have := curveOf_eq (t := t) (vals := x.map scalar) (by simpa using hl) []
  simp only [List.map_map] at this
  have h2 : ((fun a : Arr R => a.elem []) ∘ scalar) = id := rfl
  rw [h2, List.map_id] at this
  rw [← this]
  rfl

theorem one_record [Inhabited R] (x : R) (a : Arr R) (ha : a.shape.filter (· ≠ 1) ≠ []) (h0 : 0 ∉ a.shape) : curves [x] [a] = .error .valueError := by
  have hsh : (squeeze (stack [a])).shape = a.shape.filter (· ≠ 1) := by
    rw [squeeze, stack_shape (s := a.shape) (by simp) (by simp)]
    rfl
  have hne : ∀ m ∈ a.shape.filter (· ≠ 1), m ≠ 1 ∧ m ≠ 0 := fun m hm =>
    ⟨by simpa using (List.mem_filter.1 hm).2, fun h => h0 (h ▸ (List.mem_filter.1 hm).1)⟩
  unfold curves
  dsimp only
  rw [hsh]
  revert ha hne hsh
  generalize a.shape.filter (· ≠ 1) = s
  intro ha hsh hne
  have hplot : ∀ (m n : ℕ) (f : List ℕ → R), m ≠ 1 → plotLines [x] ⟨[m, n], f⟩ = .error .valueError := by
    intro m n f hm
    unfold plotLines
    dsimp only
    rw [if_neg (by simpa using hm.symm)]
  match s, ha, hne, hsh with
  | [m], _, hne, hsh =>
    dsimp only
    unfold plotLines
    rw [hsh]
    dsimp only
    rw [if_neg (by simpa using (hne m (by simp)).1.symm)]
  | [m, n], _, hne, hsh =>
    dsimp only
    unfold plotLines
    rw [hsh]
    dsimp only
    rw [if_neg (by simpa using (hne m (by simp)).1.symm)]
  | [m, n, c], _, hne, hsh =>
    obtain ⟨c', rfl⟩ : ∃ c', c = c' + 1 := ⟨c - 1, by have := (hne c (by simp)).2; omega⟩
    dsimp only
    rw [List.range_succ_eq_map, List.mapM_cons, hplot m n _ (hne m (by simp)).1]
    rfl
  | m :: n :: c :: d :: s, _, hne, hsh =>
    dsimp only
    unfold plotLines
    rw [hsh]

/-! ## Invariants -/

theorem seq_inv (I : World F → Prop) (r : World F × Py Unit) (g : World F → World F × Py Unit) (h : I r.1) (hg : ∀ w, I w → I (g w).1) : I (seq r g).1 := by
  obtain ⟨w, r⟩ := r
  cases r with
  | error e => exact h
  | ok u => exact hg w h

theorem each_inv {α : Type} (I : World F → Prop) (f : α → World F → World F × Py Unit) (l : List α) (hf : ∀ a w, I w → I (f a w).1) (w : World F) (h : I w) : I (each f l w).1 := by
  induction l generalizing w with
  | nil => exact h
  | cons a l ih => exact seq_inv I _ _ (hf a w h) fun w h => ih w h

/-- The settings are those. -/
def Settings (b : String) (r : String → Val) (w : World F) : Prop := w.backend = b ∧ w.rc = r

theorem makeDir_settings {b r} (env : Env) (d : String) (w : World F) (h : Settings b r w) : Settings b r (makeDir env d w).1 := by
  unfold makeDir
  split_ifs <;> exact h

theorem saveFig_settings {b r} (env : Env) (fig : F) (p : String × String) (w : World F) (h : Settings b r w) : Settings b r (saveFig env fig p w).1 := by
  unfold saveFig
  split_ifs <;> exact h

theorem saveAll_settings {b r} (env : Env) (d name : String) (fig : F) (w : World F) (h : Settings b r w) : Settings b r (saveAll env d name fig w).1 :=
  seq_inv _ _ _ (makeDir_settings env d w h) fun w h => each_inv _ _ _ (fun _ w h => saveFig_settings env fig _ w h) w h

theorem put_settings {b r} (env : Env) (print : Bool) (d name : String) (fig : F) (w : World F) (h : Settings b r w) : Settings b r (put env print d name fig w).1 := by
  unfold put
  split_ifs
  · exact saveAll_settings env d name fig w h
  · exact h

theorem plotEntry_settings [Inhabited R] {b r} (env : Env) (print : Bool) (d base block : String) (t : List R) (e : String × List (Arr R)) (w : World (Fig R)) (h : Settings b r w) :
    Settings b r (plotEntry env print d base block t e w).1 := by
  unfold plotEntry
  split_ifs
  · exact h
  all_goals
    split
    · exact h
    · exact put_settings env _ d _ _ w h

theorem plotEnergy_settings [Inhabited R] {b r} (env : Env) (print : Bool) (d base : String) (data : Data R) (w : World (Fig R)) (h : Settings b r w) :
    Settings b r (plotEnergy env print d base data w).1 := by
  unfold plotEnergy
  split
  · exact h
  · exact put_settings env print d _ _ w h

theorem get?_map_value (d : PDict String Val) (g : String → Val) (k : String) : PDict.get? (d.map fun e => (e.1, g e.1)) k = (PDict.get? d k).map fun _ => g k := by
  induction d with
  | nil => rfl
  | cons e d ih =>
    rw [List.map_cons, PDict.get?_cons, PDict.get?_cons]
    by_cases h : e.1 = k
    · rw [if_pos h, if_pos h, h]; rfl
    · rw [if_neg h, if_neg h, ih]

/-- Changing the settings and resetting them. -/
theorem reset_setup (w w' : World F) (h : Settings (setup w).backend (setup w).rc w') : Settings w.backend w.rc (reset (previous w) w') := by
  refine ⟨rfl, ?_⟩
  funext k
  show (PDict.get? (newSettings.map fun e => (e.1, w.rc e.1)) k).getD (w'.rc k) = w.rc k
  rw [get?_map_value, h.2]
  show ((PDict.get? newSettings k).map fun _ => w.rc k).getD ((PDict.get? newSettings k).getD (w.rc k)) = w.rc k
  cases PDict.get? newSettings k <;> rfl

/-- A framed figure: with success the settings are as before, with an exception while a figure is saved they are those for saving. -/
theorem framed_settings (visualize print : Bool) (body : World F → World F × Py Unit) (hb : ∀ b r w, Settings b r w → Settings b r (body w).1) (w : World F) :
    ((framed visualize print body w).2 = .ok () → Settings w.backend w.rc (framed visualize print body w).1) ∧
    (visualize = false → print = true → ∀ e, (framed visualize print body w).2 = .error e → Settings (setup w).backend (setup w).rc (framed visualize print body w).1) ∧
    (print = false → Settings w.backend w.rc (framed visualize print body w).1) := by
  unfold framed
  cases visualize <;> cases print
  · simp [Settings]
  · have h := hb _ _ (setup w) ⟨rfl, rfl⟩
    simp only [Bool.false_and, Bool.false_eq_true, if_false, Bool.not_true, Bool.and_false, if_true]
    revert h
    generalize body (setup w) = r
    obtain ⟨w', r⟩ := r
    intro h
    cases r with
    | error e => exact ⟨fun h => (by cases h), fun _ _ _ _ => h, fun h => (by cases h)⟩
    | ok u => exact ⟨fun _ => reset_setup w w' h, fun _ _ e he => by (simp [seq] at he), fun h => (by cases h)⟩
  · have h := hb _ _ w ⟨rfl, rfl⟩
    simp only [Bool.and_false, Bool.false_eq_true, if_false, Bool.not_true, Bool.false_and]
    revert h
    generalize body w = r
    obtain ⟨w', r⟩ := r
    intro h
    cases r with
    | error e => exact ⟨fun h => (by cases h), fun h => (by cases h), fun _ => h⟩
    | ok u => exact ⟨fun _ => h, fun h => (by cases h), fun _ => h⟩
  · simp [Settings]

/-- The same for the two functions that choose between showing and saving. -/
theorem byArgs_settings (body : Bool → Bool → World F → World F × Py Unit) (args : Option Args) (w : World F)
    (hb : ∀ v p w, ((body v p w).2 = .ok () → Settings w.backend w.rc (body v p w).1) ∧ (v = false → p = true → ∀ e, (body v p w).2 = .error e → Settings (setup w).backend (setup w).rc (body v p w).1) ∧
      (p = false → Settings w.backend w.rc (body v p w).1)) :
    ((byArgs body args w).2 = .ok () → Settings w.backend w.rc (byArgs body args w).1) ∧
    (∀ a, args = some a → a.viz = false → a.save = true → ∀ e, (byArgs body args w).2 = .error e → Settings (setup w).backend (setup w).rc (byArgs body args w).1) := by
  cases args with
  | none => exact ⟨fun h => (hb true false w).1 h, fun _ h => by cases h⟩
  | some a =>
    unfold byArgs
    dsimp only
    obtain ⟨viz, save, d, b⟩ := a
    cases viz <;> cases save
    · exact ⟨fun _ => ⟨rfl, rfl⟩, fun _ h _ hs => by cases h; cases hs⟩
    · simp only [Bool.false_eq_true, if_false, if_true, seq]
      exact ⟨fun h => (hb false true w).1 h, fun _ _ _ _ e he => (hb false true w).2.1 rfl rfl e he⟩
    · simp only [Bool.false_eq_true, if_false, if_true]
      have h1 := (hb true false w).2.2 rfl
      revert h1
      generalize body true false w = r
      obtain ⟨w', r⟩ := r
      intro h1
      cases r with
      | error e => exact ⟨fun h => (by cases h), fun _ h hv => by cases h; cases hv⟩
      | ok u => exact ⟨fun _ => h1, fun _ h hv => by cases h; cases hv⟩
    · simp only [if_true]
      have h1 := (hb true false w).2.2 rfl
      revert h1
      generalize body true false w = r
      obtain ⟨w', r⟩ := r
      intro h1
      cases r with
      | error e => exact ⟨fun h => (by cases h), fun _ h hv => by cases h; cases hv⟩
      | ok u =>
        refine ⟨fun h => ?_, fun _ h hv => by cases h; cases hv⟩
        have h2 := (hb false true w').1 h
        exact ⟨h2.1.trans h1.1, h2.2.trans h1.2⟩

/-! ## Files -/

/-- The three formats. -/
def formats : List String := ["png", "pdf", "pgf"]

theorem length_formats {f : String} (h : f ∈ formats) : f.toList.length = 3 := by
  have : ∀ f ∈ formats, f.toList.length = 3 := by decide
  exact this f h

/-- The names of the files tell the figures and the formats apart. -/
theorem file_inj {pre k k' f f' : String} (hf : f ∈ formats) (hf' : f' ∈ formats) (h : pre ++ k ++ "." ++ f = pre ++ k' ++ "." ++ f') : k = k' ∧ f = f' := by
  have h := congrArg String.toList h
  simp only [String.toList_append, List.append_assoc] at h
  have h := List.append_cancel_left h
  rw [← List.append_assoc, ← List.append_assoc] at h
  have h2 := List.append_inj' h (by rw [length_formats hf, length_formats hf'])
  exact ⟨String.toList_inj.1 (List.append_cancel_right h2.1), String.toList_inj.1 h2.2⟩

/-- A directory is there or can be made, and files in it can be written. -/
def Writable (env : Env) (d : String) (w : World F) : Prop := (d ∈ w.dirs ∨ env.canMake d = true) ∧ ∀ n, env.canSave (d, n) = true

theorem saveAll_ok {env : Env} {d : String} {w : World F} (h : Writable env d w) (name : String) (fig : F) :
    ∃ w', saveAll env d name fig w = (w', .ok ()) ∧ Writable env d w' ∧ d ∈ w'.dirs ∧ w'.shown = w.shown ∧ w'.gifs = w.gifs ∧
      (∀ f ∈ formats, w'.files.get? (d, name ++ "." ++ f) = some fig) ∧ (∀ p, (∀ f ∈ formats, p ≠ (d, name ++ "." ++ f)) → w'.files.get? p = w.files.get? p) := by
  obtain ⟨w1, h1, hw1, hd1, hf1, hs1, hg1⟩ : ∃ w1, makeDir env d w = (w1, .ok ()) ∧ Writable env d w1 ∧ d ∈ w1.dirs ∧ w1.files = w.files ∧ w1.shown = w.shown ∧ w1.gifs = w.gifs := by
    unfold makeDir
    by_cases hd : d ∈ w.dirs
    · exact ⟨w, by rw [if_pos hd], h, hd, rfl, rfl, rfl⟩
    · have hm := h.1.resolve_left hd
      exact ⟨{ w with dirs := w.dirs ++ [d] }, by rw [if_neg hd, if_pos hm], ⟨.inl (by simp), h.2⟩, by simp, rfl, rfl, rfl⟩
  refine ⟨{ w1 with files := ((w1.files.set (d, name ++ "." ++ "png") fig).set (d, name ++ "." ++ "pdf") fig).set (d, name ++ "." ++ "pgf") fig }, ?_, hw1, hd1, hs1, hg1, ?_, ?_⟩
  · unfold saveAll
    rw [h1]
    simp only [seq, each, saveFig, h.2, if_true]
  · intro f hf
    simp only [PDict.get?_set]
    simp only [formats, List.mem_cons, List.not_mem_nil, or_false] at hf
    rcases hf with rfl | rfl | rfl <;> simp
  · intro p hp
    have h1 := hp "png" (by decide)
    have h2 := hp "pdf" (by decide)
    have h3 := hp "pgf" (by decide)
    simp only [PDict.get?_set]
    rw [if_neg h3.symm, if_neg h2.symm, if_neg h1.symm, hf1]

theorem energy_excluded (block : String) {k : String} (h : excluded block k = false) : k ≠ "energy" ∧ k ≠ "t" := by
  constructor <;> rintro rfl
  · have : startsWith "energy" "energy" = true := by decide
    simp [excluded, doNotPlot, this] at h
  · have : startsWith "t" "t" = true := by decide
    simp [excluded, doNotPlot, this] at h

/-- The loop over the entries when figures are saved. -/
theorem entries_saved [Inhabited R] {env : Env} {d base block : String} {t : List R} (l : Data R) (hk : l.keys.Nodup) (hc : ∀ e ∈ l, excluded block e.1 = false → ∃ c, curves t e.2 = .ok c)
    (w : World (Fig R)) (hw : Writable env d w) : ∃ w', each (plotEntry env true d base block t) l w = (w', .ok ()) ∧ Writable env d w' ∧ w'.shown = w.shown ∧ w'.gifs = w.gifs ∧
      (∀ e ∈ l, excluded block e.1 = false → ∀ f ∈ formats, ∃ c, curves t e.2 = .ok c ∧ w'.files.get? (d, base ++ "-" ++ e.1 ++ "." ++ f) = some ⟨Latex.escape e.1.toList, c⟩) ∧
      (∀ p, (∀ e ∈ l, excluded block e.1 = false → ∀ f ∈ formats, p ≠ (d, base ++ "-" ++ e.1 ++ "." ++ f)) → w'.files.get? p = w.files.get? p) := by
  induction l generalizing w with
  | nil => exact ⟨w, rfl, hw, rfl, rfl, by simp, fun _ _ => rfl⟩
  | cons e l ih =>
    rw [PDict.keys_cons, List.nodup_cons] at hk
    rw [each]
    by_cases he : excluded block e.1 = true
    · obtain ⟨w', h1, h2, h3, h4, h5, h6⟩ := ih hk.2 (fun e he => hc e (by simp [he])) w hw
      refine ⟨w', ?_, h2, h3, h4, ?_, ?_⟩
      · rw [plotEntry, if_pos he]
        exact h1
      · intro e' he' hx
        rcases List.mem_cons.1 he' with rfl | he'
        · rw [he] at hx; cases hx
        · exact h5 e' he' hx
      · exact fun p hp => h6 p fun e he => hp e (by simp [he])
    · have he : excluded block e.1 = false := by simpa using he
      obtain ⟨c, hcc⟩ := hc e (by simp) he
      obtain ⟨w1, a1, a2, _, a4, a5, a6, a7⟩ := saveAll_ok hw (base ++ "-" ++ e.1) (⟨Latex.escape e.1.toList, c⟩ : Fig R)
      obtain ⟨w', h1, h2, h3, h4, h5, h6⟩ := ih hk.2 (fun e he => hc e (by simp [he])) w1 a2
      have hdis : ∀ e' ∈ l, ∀ f ∈ formats, ∀ f' ∈ formats, (d, base ++ "-" ++ e.1 ++ "." ++ f) ≠ (d, base ++ "-" ++ e'.1 ++ "." ++ f') := by
        intro e' he' f hf f' hf' h
        have h := (Prod.mk.inj h).2
        have := (file_inj (pre := base ++ "-") hf hf' h).1
        exact hk.1 (this ▸ List.mem_map_of_mem he')
      refine ⟨w', ?_, h2, h3.trans a4, h4.trans a5, ?_, ?_⟩
      · rw [plotEntry, if_neg (by simp [he]), hcc]
        dsimp only
        rw [put, if_pos rfl]
        simp only [if_true]
        rw [a1]
        exact h1
      · intro e' he' hx f hf
        rcases List.mem_cons.1 he' with rfl | he'
        · refine ⟨c, hcc, ?_⟩
          rw [h6 _ fun e' he' _ f' hf' => hdis e' he' f hf f' hf']
          exact a6 f hf
        · exact h5 e' he' hx f hf
      · intro p hp
        rw [h6 p fun e he => hp e (by simp [he]), a7 p fun f hf => hp e (by simp) he f hf]

/-- The loop over the entries when figures are shown. -/
theorem entries_shown [Inhabited R] {env : Env} {d base block : String} {t : List R} (l : Data R) (hc : ∀ e ∈ l, excluded block e.1 = false → ∃ c, curves t e.2 = .ok c) (w : World (Fig R)) :
    ∃ figs : List (Fig R), each (plotEntry env false d base block t) l w = ({ w with shown := w.shown ++ figs }, .ok ()) ∧
      List.Forall₂ (fun e fig => fig.label = e.1.toList ∧ curves t e.2 = .ok fig.lines) (l.filter fun e => !excluded block e.1) figs := by
  induction l generalizing w with
  | nil => exact ⟨[], by simp [each], .nil⟩
  | cons e l ih =>
    rw [each]
    by_cases he : excluded block e.1 = true
    · obtain ⟨figs, h1, h2⟩ := ih (fun e he => hc e (by simp [he])) w
      refine ⟨figs, ?_, ?_⟩
      · rw [plotEntry, if_pos he]
        exact h1
      · rw [List.filter_cons_of_neg (by simp [he])]
        exact h2
    · have he : excluded block e.1 = false := by simpa using he
      obtain ⟨c, hcc⟩ := hc e (by simp) he
      obtain ⟨figs, h1, h2⟩ := ih (fun e he => hc e (by simp [he])) { w with shown := w.shown ++ [⟨e.1.toList, c⟩] }
      refine ⟨⟨e.1.toList, c⟩ :: figs, ?_, ?_⟩
      · rw [plotEntry, if_neg (by simp [he]), hcc]
        dsimp only
        rw [put, if_neg (by simp)]
        simp only [Bool.false_eq_true, if_false, seq]
        rw [h1]
        simp
      · rw [List.filter_cons_of_pos (by simp [he])]
        exact .cons ⟨rfl, hcc⟩ h2

end Verif.Figures
