import Verif.Figures.Lemmas
import Verif.Hooks.Spec

/-!
# C86: figures show what was recorded, and nothing else changes

All recordings, block names, options, file systems and states of `matplotlib`.
-/

namespace Verif.Figures
open Verif

variable {F R : Type}

/-! ## Which quantities are plotted -/

/-- The name does not begin with one of the five words `t`, `energy`, `dot_state`, `dot_costate`, `dot_data`. -/
def Free (s : String) : Prop := ∀ p ∈ ["t", "energy", "dot_state", "dot_costate", "dot_data"], ¬ p.toList <+: s.toList

/-- The names in a key are free. -/
def FreeKey : Hooks.Key → Prop
  | .param k p => Free k ∧ Free p
  | .var b _ _ => Free b
  | .norm _ _ p => Free p
  | _ => True

theorem prefix_split {a b x y : List Char} (ha : '.' ∉ a) (hb : '.' ∉ b) (h : a ++ '.' :: x <+: b ++ '.' :: y) : a = b ∧ x <+: y := by
  induction a generalizing b with
  | nil =>
    cases b with
    | nil => exact ⟨rfl, (List.cons_prefix_cons.1 h).2⟩
    | cons c b =>
      have := (List.cons_prefix_cons.1 h).1
      exact absurd (by simp [← this]) hb
  | cons c a ih =>
    cases b with
    | nil =>
      have := (List.cons_prefix_cons.1 h).1
      exact absurd (by simp [this]) ha
    | cons d b =>
      have h := List.cons_prefix_cons.1 h
      obtain ⟨h1, h2⟩ := ih (fun hm => ha (by simp [hm])) (fun hm => hb (by simp [hm])) h.2
      exact ⟨by rw [h.1, h1], h2⟩

theorem excluded_iff (block k : String) : excluded block k = true ↔ ∃ p ∈ doNotPlot, p.toList <+: k.toList ∨ block.toList ++ '.' :: p.toList <+: k.toList := by
  have h1 : ".".toList = ['.'] := rfl
  simp [excluded, startsWith, h1]

theorem prefix_of_append_cons {p a : List Char} {c : Char} {x : List Char} (hp : c ∉ p) (h : p <+: a ++ c :: x) : p <+: a := by
  induction p generalizing a with
  | nil => exact List.nil_prefix
  | cons d p ih =>
    cases a with
    | nil =>
      have := (List.cons_prefix_cons.1 h).1
      exact absurd (by simp [this]) hp
    | cons e a =>
      have h := List.cons_prefix_cons.1 h
      exact List.cons_prefix_cons.2 ⟨h.1, ih (fun hm => hp (by simp [hm])) h.2⟩

theorem word_no_dot : ∀ p ∈ doNotPlot, '.' ∉ p.toList := by decide

theorem no_dot_of_prefix {a x y : List Char} (hy : '.' ∉ y) : ¬ a ++ '.' :: x <+: y := by
  intro h
  exact hy (h.subset (by simp))

/-- **C86.** What is plotted if no name begins with one of the five words: everything that is recorded except time, energy and the derivatives of the states, momenta and data of the block. -/
theorem C86_selected_partial (block : String) (hb : Hooks.NoDot block) (κ : Hooks.Key) (hκ : κ.Plain) (hf : FreeKey κ) :
    excluded block κ.text = true ↔ κ = .time ∨ κ = .energy ∨ ∃ s, κ = .var block .dotState s ∨ κ = .var block .dotCostate s ∨ κ = .var block .dotData s := by
  have hdot : ".".toList = ['.'] := rfl
  rw [excluded_iff]
  cases κ with
  | time => exact ⟨fun _ => .inl rfl, fun _ => ⟨"t", by decide, .inl (by decide)⟩⟩
  | energy => exact ⟨fun _ => .inr (.inl rfl), fun _ => ⟨"energy", by decide, .inl (by decide)⟩⟩
  | param k p =>
    refine ⟨fun h => ?_, fun h => by simp at h⟩
    exfalso
    obtain ⟨q, hq, h⟩ := h
    simp only [Hooks.Key.text, String.toList_append, hdot, List.append_assoc, List.cons_append, List.nil_append] at h
    rcases h with h | h
    · exact hf.1 q hq (prefix_of_append_cons (word_no_dot q hq) h)
    · exact hf.2 q hq (prefix_split hb hκ.1 h).2
  | var b w s =>
    have key : ∀ q ∈ doNotPlot, q.toList <+: w.text.toList ++ '.' :: s.toList → w = .dotState ∨ w = .dotCostate ∨ w = .dotData := by
      intro q hq h
      have h := prefix_of_append_cons (word_no_dot q hq) h
      have : ∀ w : Hooks.Which, ∀ q ∈ doNotPlot, q.toList <+: w.text.toList → w = .dotState ∨ w = .dotCostate ∨ w = .dotData := by
        intro w
        cases w <;> decide
      exact this w q hq h
    constructor
    · rintro ⟨q, hq, h⟩
      simp only [Hooks.Key.text, String.toList_append, hdot, List.append_assoc, List.cons_append, List.nil_append] at h
      rcases h with h | h
      · exact absurd (prefix_of_append_cons (word_no_dot q hq) h) (hf q hq)
      · obtain ⟨h1, h2⟩ := prefix_split hb hκ.1 h
        have h1 := String.toList_inj.1 h1
        subst h1
        rcases key q hq h2 with rfl | rfl | rfl
        · exact .inr (.inr ⟨s, .inl rfl⟩)
        · exact .inr (.inr ⟨s, .inr (.inl rfl)⟩)
        · exact .inr (.inr ⟨s, .inr (.inr rfl)⟩)
    · intro h
      have hd : b = block ∧ (w = .dotState ∨ w = .dotCostate ∨ w = .dotData) := by
        rcases h with h | h | ⟨s', h | h | h⟩
        · cases h
        · cases h
        all_goals
          injection h with h1 h2 h3
          exact ⟨h1, by simp [h2]⟩
      obtain ⟨rfl, hw⟩ := hd
      refine ⟨w.text, ?_, .inr ?_⟩
      · rcases hw with rfl | rfl | rfl <;> decide
      · simp only [Hooks.Key.text, String.toList_append, hdot, List.append_assoc, List.cons_append, List.nil_append]
        rw [List.prefix_append_right_inj, List.cons_prefix_cons]
        exact ⟨rfl, List.prefix_append _ _⟩
  | norm n k p =>
    refine ⟨fun h => ?_, fun h => by simp at h⟩
    exfalso
    obtain ⟨q, hq, h⟩ := h
    simp only [Hooks.Key.text, String.toList_append, hdot, List.append_assoc, List.cons_append, List.nil_append] at h
    have hn : '.' ∉ n.text.toList ++ ("_".toList ++ k.toList) := by
      have h1 : '.' ∉ n.text.toList := by cases n <;> decide
      have h3 : '.' ∉ k.toList := hκ.1
      simp [h1, h3]
    have e1 : n.text.toList ++ ("_".toList ++ (k.toList ++ '.' :: p.toList)) = (n.text.toList ++ ("_".toList ++ k.toList)) ++ '.' :: p.toList := by simp
    rw [e1] at h
    rcases h with h | h
    · have h := prefix_of_append_cons (word_no_dot q hq) h
      have h0 : ∀ q ∈ doNotPlot, ∀ n : Hooks.Kind, ¬ [q.toList.headD 'x'] <+: n.text.toList := by
        intro q hq n
        revert q
        cases n <;> decide
      have h1 : [q.toList.headD 'x'] <+: q.toList := by
        have : ∀ q ∈ doNotPlot, [q.toList.headD 'x'] <+: q.toList := by decide
        exact this q hq
      have h2 := h1.trans h
      have h3 : [q.toList.headD 'x'] <+: n.text.toList := by
        refine List.prefix_of_prefix_length_le h2 (List.prefix_append _ _) ?_
        rw [List.length_singleton]
        cases n <;> decide
      exact h0 q hq n h3
    · exact hf q hq (prefix_split hb hn h).2
  | total n =>
    refine ⟨fun h => ?_, fun h => by simp at h⟩
    exfalso
    obtain ⟨q, hq, h⟩ := h
    rcases h with h | h
    · have : ∀ q ∈ doNotPlot, ∀ n : Hooks.Kind, ¬ q.toList <+: (Hooks.Key.total n).text.toList := by
        intro q hq n
        revert q
        cases n <;> decide
      exact this q hq n h
    · refine no_dot_of_prefix ?_ h
      cases n <;> decide

/-- **C86 fails for other names.** If the name of the block begins with a `t` (or with another of the five words), none of its states, momenta and data is plotted; neither are the parameters of an object with such a name. -/
theorem C86_names_lost (block b p : String) (hp : p ∈ doNotPlot) (h : p.toList <+: b.toList) :
    (∀ w s, excluded block (Hooks.Key.var b w s).text = true) ∧ ∀ x, excluded block (Hooks.Key.param b x).text = true := by
  constructor
  · intro w s
    rw [excluded_iff]
    refine ⟨p, hp, .inl ?_⟩
    simp only [Hooks.Key.text, String.toList_append, List.append_assoc]
    exact h.trans (List.prefix_append _ _)
  · intro x
    rw [excluded_iff]
    refine ⟨p, hp, .inl ?_⟩
    simp only [Hooks.Key.text, String.toList_append, List.append_assoc]
    exact h.trans (List.prefix_append _ _)

/-- The hypotheses are met: a block of the functional mapping program. -/
example : excluded "sblock" "sblock.state.q1" = false ∧ excluded "sblock" "sblock.dot_state.q1" = true ∧ excluded "sblock" "l1.weight" = false ∧ excluded "t2" "t2.state.q1" = true := by
  decide

/-! ## The figures -/

/-- The recordings from which figures can be made: at least two times, an energy for each time, each name once, and under each name that is plotted an array for each time, all of one shape that is not a size of
one in at most two dimensions. -/
structure Recorded (block : String) (data : Data R) : Prop where
  times : 2 ≤ (numbers data "t").length
  energies : (numbers data "energy").length = (numbers data "t").length
  names : data.keys.Nodup
  shapes : ∀ e ∈ data, excluded block e.1 = false → e.2.length = (numbers data "t").length ∧ ∃ s, width s ≤ 2 ∧ ∀ a ∈ e.2, a.shape = s

theorem Recorded.curves [Inhabited R] {block : String} {data : Data R} (h : Recorded block data) : ∀ e ∈ data, excluded block e.1 = false → ∃ c, curves (numbers data "t") e.2 = .ok c := by
  intro e he hx
  obtain ⟨h1, s, h2, h3⟩ := h.shapes e he hx
  obtain ⟨c, hc, _⟩ := curves_ok h.times h1 h3 h2
  exact ⟨c, hc⟩

/-- The figure of a quantity: the label, and for each place in the array the curve of the values at this place. -/
def Shows (t : List R) (label : List Char) (vals : List (Arr R)) (fig : Fig R) : Prop :=
  fig.label = label ∧ ∀ s, (∀ a ∈ vals, a.shape = s) → fig.lines.Perm ((places s).map fun js => t.zip (vals.map fun a => a.elem js))

theorem Recorded.shows [Inhabited R] {block : String} {data : Data R} (h : Recorded block data) {e : String × List (Arr R)} (he : e ∈ data) (hx : excluded block e.1 = false) {c} (hc : Figures.curves (numbers data "t") e.2 = .ok c)
    (label : List Char) : Shows (numbers data "t") label e.2 ⟨label, c⟩ := by
  refine ⟨rfl, fun s hs => ?_⟩
  obtain ⟨h1, s', h2, h3⟩ := h.shapes e he hx
  obtain ⟨c', hc', hp⟩ := curves_ok h.times h1 h3 h2
  rw [hc] at hc'
  injection hc' with hc'
  subst hc'
  have : s' = s := by
    have hl := h.times
    cases hv : e.2 with
    | nil => rw [hv] at h1; simp at h1; omega
    | cons a l => rw [← h3 a (by simp [hv]), hs a (by simp [hv])]
  exact this ▸ hp

/-- **C86.** Saving (`--save_figures` without `--viz`): for the energy and for each quantity that is plotted there are three files, which show each of its entries over time; all other files are as before, nothing is
shown, and the settings of `matplotlib` are as before. -/
theorem C86_saved [Inhabited R] (env : Env) (block : String) (data : Data R) (a : Args) (w : World (Fig R)) (h : Recorded block data) (hv : a.viz = false) (hs : a.save = true) (hw : Writable env a.dir w) :
    ∃ w', plotTemporalData env block data (some a) w = (w', .ok ()) ∧ w'.backend = w.backend ∧ w'.rc = w.rc ∧ w'.shown = w.shown ∧ w'.gifs = w.gifs ∧
      (∀ f ∈ ["png", "pdf", "pgf"], w'.files.get? (a.dir, a.base ++ "-energy." ++ f) = some ⟨"energy".toList, [(numbers data "t").zip (numbers data "energy")]⟩) ∧
      (∀ k vals, (k, vals) ∈ data → excluded block k = false → ∀ f ∈ ["png", "pdf", "pgf"],
        ∃ fig, w'.files.get? (a.dir, a.base ++ "-" ++ k ++ "." ++ f) = some fig ∧ Shows (numbers data "t") (Latex.escape k.toList) vals fig) ∧
      (∀ p, (∀ f ∈ ["png", "pdf", "pgf"], p ≠ (a.dir, a.base ++ "-energy." ++ f)) → (∀ k vals, (k, vals) ∈ data → excluded block k = false → ∀ f ∈ ["png", "pdf", "pgf"], p ≠ (a.dir, a.base ++ "-" ++ k ++ "." ++ f)) →
        w'.files.get? p = w.files.get? p) := by
  obtain ⟨viz, save, d, base⟩ := a
  dsimp only at hv hs hw ⊢
  subst hv hs
  have hw0 : Writable env d (setup w) := hw
  have hname : ∀ f, base ++ "-energy." ++ f = base ++ "-" ++ "energy" ++ "." ++ f := fun f => by
    apply String.toList_inj.1
    simp [String.toList_append]
  obtain ⟨w1, a1, a2, _, a4, a5, a6, a7⟩ := saveAll_ok hw0 (base ++ "-energy") (⟨"energy".toList, [(numbers data "t").zip (numbers data "energy")]⟩ : Fig R)
  obtain ⟨w2, b1, _, b3, b4, b5, b6⟩ := entries_saved (base := base) data h.names h.curves w1 a2
  have hn2 : ∀ f, base ++ "-energy" ++ "." ++ f = base ++ "-energy." ++ f := fun f => by
    apply String.toList_inj.1
    simp [String.toList_append]
  have hbody : seq (plotEnergy env true d base data (setup w)) (each (plotEntry env true d base block (numbers data "t")) data) = (w2, .ok ()) := by
    rw [plotEnergy, energy_ok h.energies]
    dsimp only
    rw [put, if_pos rfl, a1]
    exact b1
  have hset : Settings (setup w).backend (setup w).rc w2 := by
    have := seq_inv (Settings (setup w).backend (setup w).rc) (plotEnergy env true d base data (setup w)) (each (plotEntry env true d base block (numbers data "t")) data)
      (plotEnergy_settings env true d base data _ ⟨rfl, rfl⟩) fun w hw => each_inv _ _ _ (fun e w hw => plotEntry_settings env true d base block _ e w hw) w hw
    rw [hbody] at this
    exact this
  have hr := reset_setup w w2 hset
  refine ⟨reset (previous w) w2, ?_, hr.1, hr.2, b3.trans a4, b4.trans a5, ?_, ?_, ?_⟩
  · unfold plotTemporalData byArgs
    simp only [Option.map_some, Option.getD_some, Bool.false_eq_true, if_false, if_true, seq]
    unfold plotTemporal framed
    simp only [Bool.false_and, Bool.false_eq_true, if_false, Bool.not_true, Bool.and_false, if_true]
    rw [hbody]
    rfl
  · intro f hf
    show w2.files.get? _ = _
    rw [b6, ← hn2, a6 f hf]
    intro e he hx f' hf' heq
    have := (file_inj (pre := base ++ "-") hf hf' ((hname f).symm.trans (Prod.mk.inj heq).2)).1
    exact (energy_excluded block hx).1 this.symm
  · intro k vals hk hx f hf
    obtain ⟨c, hc, hget⟩ := b5 (k, vals) hk hx f hf
    exact ⟨_, hget, h.shows hk hx hc _⟩
  · intro p hp1 hp2
    show w2.files.get? p = _
    rw [b6 p fun e he hx f hf => hp2 e.1 e.2 he hx f hf, a7 p fun f hf => by rw [hn2]; exact hp1 f hf]
    rfl

/-- **C86.** Showing (`--viz` without `--save_figures`, or no options): the energy, then the quantities that are plotted in the order in which they were first recorded; nothing else changes. -/
theorem C86_shown [Inhabited R] (env : Env) (block : String) (data : Data R) (args : Option Args) (w : World (Fig R)) (h : Recorded block data) (ha : ∀ a, args = some a → a.viz = true ∧ a.save = false) :
    ∃ figs : List (Fig R), plotTemporalData env block data args w =
        ({ w with shown := w.shown ++ ⟨"energy".toList, [(numbers data "t").zip (numbers data "energy")]⟩ :: figs }, .ok ()) ∧
      List.Forall₂ (fun e fig => Shows (numbers data "t") e.1.toList e.2 fig) (data.filter fun e => !excluded block e.1) figs := by
  obtain ⟨figs, h1, h2⟩ := entries_shown (env := env) (d := (args.map Args.dir).getD "") (base := (args.map Args.base).getD "") data h.curves
    { w with shown := w.shown ++ [⟨"energy".toList, [(numbers data "t").zip (numbers data "energy")]⟩] }
  refine ⟨figs, ?_, ?_⟩
  · have key : plotTemporal env ((args.map Args.dir).getD "") ((args.map Args.base).getD "") block data true false w =
        ({ w with shown := w.shown ++ ⟨"energy".toList, [(numbers data "t").zip (numbers data "energy")]⟩ :: figs }, .ok ()) := by
      unfold plotTemporal framed
      simp only [Bool.and_false, Bool.false_eq_true, if_false, Bool.not_true, Bool.false_and]
      rw [plotEnergy, energy_ok h.energies]
      dsimp only
      rw [put, if_neg (by simp)]
      simp only [seq]
      rw [h1]
      simp
    unfold plotTemporalData byArgs
    cases args with
    | none => exact key
    | some a =>
      obtain ⟨hv, hs⟩ := ha a rfl
      dsimp only
      rw [if_pos hv, key]
      simp [seq, hs]
  · clear h1
    have : ∀ e ∈ data.filter fun e => !excluded block e.1, e ∈ data ∧ excluded block e.1 = false := by
      intro e he
      have := List.mem_filter.1 he
      exact ⟨this.1, by simpa using this.2⟩
    revert h2 this
    generalize data.filter (fun e => !excluded block e.1) = l
    intro h2
    induction h2 with
    | nil => exact fun _ => .nil
    | @cons e fig l' figs' hh _ ih =>
      intro hm
      refine .cons ?_ (ih fun e he => hm e (by simp [he]))
      have := h.shows (hm e (by simp)).1 (hm e (by simp)).2 hh.2 fig.label
      exact ⟨hh.1, this.2⟩

/-- **C86.** With a single time nothing but numbers can be plotted: an array with more than one entry is an error. -/
theorem C86_single_time [Inhabited R] (x : R) (a : Arr R) (h0 : 0 ∉ a.shape) (h1 : ∃ m ∈ a.shape, m ≠ 1) : curves [x] [a] = .error .valueError := by
  refine one_record x a ?_ h0
  obtain ⟨m, hm, hm1⟩ := h1
  intro he
  have : m ∈ a.shape.filter (· ≠ 1) := List.mem_filter.2 ⟨hm, by simpa using hm1⟩
  rw [he] at this
  cases this

/-- **C86.** Parameters and states of convolutional models (three or more dimensions that are not of size one) cannot be plotted. -/
theorem C86_too_wide [Inhabited R] (t : List R) (vals : List (Arr R)) (s : List ℕ) (hT : 2 ≤ t.length) (hl : vals.length = t.length) (hs : ∀ a ∈ vals, a.shape = s) (hw : 3 ≤ width s) :
    curves t vals = .error .valueError := by
  have hv : vals ≠ [] := by rintro rfl; simp at hl; omega
  have hsh : (squeeze (stack vals)).shape = t.length :: s.filter (· ≠ 1) := by
    rw [squeeze, stack_shape hv hs, hl, List.filter_cons_of_pos]
    simp only [decide_eq_true_eq]
    omega
  unfold width at hw
  match hf : s.filter (· ≠ 1), hw with
  | [], hw => rw [hf] at hw; simp at hw
  | [_], hw => rw [hf] at hw; simp at hw
  | [_, _], hw => rw [hf] at hw; simp at hw
  | a :: b :: c :: l, _ =>
    rw [hf] at hsh
    unfold curves
    dsimp only
    rw [hsh]
    dsimp only
    unfold plotLines
    rw [hsh]

end Verif.Figures
