import Verif.Cli.Spec
import Mathlib.Data.List.Basic
import Mathlib.Data.List.Nodup

namespace Verif.Cli
open Verif

theorem foldl_append_flatMap {A B : Type} (f : A → List B) (l : List A) (acc : List B) :
    l.foldl (fun acc a => acc ++ f a) acc = acc ++ l.flatMap f := by
  induction l generalizing acc with
  | nil => simp
  | cons a l ih => rw [List.foldl_cons, ih]; simp

theorem makeArgList_eq (args : PDict Str Val) : makeArgList args = args.flatMap argOf := by
  rw [makeArgList, foldl_append_flatMap]; rfl

/-! ## splitting and escaping -/

theorem splitSemi_ne_nil (s : Str) : splitSemi s ≠ [] := by
  cases s with
  | nil => simp [splitSemi]
  | cons c s =>
    rw [splitSemi]
    split
    · simp
    · split <;> simp

/-- Escaping, character by character. -/
def escChar (c : Char) : Str := if c = ';' then ['\\', ';'] else [c]

theorem foldl_sep (ps : List Str) (p : Str) :
    ps.foldl (fun ret c => ret ++ ("\\;".toList ++ c)) p = p ++ ps.flatMap (fun c => '\\' :: ';' :: c) := by
  rw [foldl_append_flatMap]
  rfl

theorem escape_aux (s : Str) : ∀ p ps, splitSemi s = p :: ps →
    p ++ ps.flatMap (fun c => '\\' :: ';' :: c) = s.flatMap escChar := by
  induction s with
  | nil => intro p ps h; simp only [splitSemi, List.cons.injEq] at h; obtain ⟨rfl, rfl⟩ := h; rfl
  | cons c s ih =>
    intro p ps h
    cases hs : splitSemi s with
    | nil => exact absurd hs (splitSemi_ne_nil s)
    | cons q qs =>
      have := ih q qs hs
      rw [splitSemi] at h
      by_cases hc : c = ';'
      · subst hc
        rw [if_pos rfl, hs] at h
        simp only [List.cons.injEq] at h
        obtain ⟨rfl, rfl⟩ := h
        simp [escChar, ← this]
      · rw [if_neg hc, hs] at h
        simp only [List.cons.injEq] at h
        obtain ⟨rfl, rfl⟩ := h
        simp [escChar, hc, ← this]

theorem escape_eq (s : Str) : escapeSemicolons s = s.flatMap escChar := by
  unfold escapeSemicolons
  cases hs : splitSemi s with
  | nil => exact absurd hs (splitSemi_ne_nil s)
  | cons p ps =>
    cases ps with
    | nil =>
      have := escape_aux s p [] hs
      simp only [List.flatMap_nil, List.append_nil] at this
      -- a text without semicolons is its own only piece
      have hp : ∀ s : Str, ∀ p, splitSemi s = [p] → p = s := by
        intro s
        induction s with
        | nil => intro p h; simp only [splitSemi, List.cons.injEq, and_true] at h; exact h.symm
        | cons c s ih =>
          intro p h
          rw [splitSemi] at h
          by_cases hc : c = ';'
          · rw [if_pos hc] at h
            simp only [List.cons.injEq] at h
            exact absurd h.2 (splitSemi_ne_nil s)
          · rw [if_neg hc] at h
            cases hq : splitSemi s with
            | nil => exact absurd hq (splitSemi_ne_nil s)
            | cons q qs =>
              rw [hq] at h
              simp only [List.cons.injEq] at h
              obtain ⟨rfl, rfl⟩ := h
              rw [ih q hq]
      rw [← this, hp s p hs]
    | cons q qs =>
      simp only
      rw [foldl_sep]
      exact escape_aux s p (q :: qs) hs

theorem unescape_cons_of_ne {c : Char} (h : c ≠ '\\') (s : Str) : unescape (c :: s) = c :: unescape s := by
  cases s with
  | nil => rfl
  | cons d s => rw [unescape, if_neg (by simp [h])]

theorem unescape_sep (s : Str) : unescape ('\\' :: ';' :: s) = ';' :: unescape s := by
  rw [unescape, if_pos ⟨rfl, rfl⟩]

/-- An unescaped text may be cut in front of anything but a semicolon. -/
theorem unescape_append (c : Char) (hc : c ≠ ';') (a s : Str) :
    unescape (a ++ c :: s) = unescape a ++ unescape (c :: s) := by
  induction a using unescape.induct with
  | case1 => rfl
  | case2 d =>
    change unescape (d :: c :: s) = d :: unescape (c :: s)
    rw [unescape.eq_3, if_neg (by simp [hc])]
  | case3 d e a h ih =>
    simp only [List.cons_append] at ih ⊢
    rw [unescape, if_pos h, ih, unescape, if_pos h]
    rfl
  | case4 d e a h ih =>
    simp only [List.cons_append] at ih ⊢
    rw [unescape, if_neg h, ih, unescape, if_neg h]
    rfl

/-- A text without semicolons in front of a separator. -/
theorem unescape_escape_append (s r : Str) (hr : ∀ c ∈ r.head?, c ≠ ';') :
    unescape (s.flatMap escChar ++ r) = s ++ unescape r := by
  induction s with
  | nil => rfl
  | cons c s ih =>
    rw [List.flatMap_cons, List.append_assoc]
    by_cases hc : c = ';'
    · subst hc
      rw [escChar, if_pos rfl]
      simp only [List.cons_append, List.nil_append]
      rw [unescape_sep, ih]
    · rw [escChar, if_neg hc]
      simp only [List.cons_append, List.nil_append]
      have hne : ∀ d ∈ (s.flatMap escChar ++ r).head?, d ≠ ';' := by
        intro d hd
        cases s with
        | nil => exact hr d hd
        | cons e s =>
          by_cases he : e = ';'
          · subst he
            simp [escChar] at hd
            rw [← hd]; decide
          · simp [escChar, he] at hd
            rw [← hd]; exact he
      rw [← ih]
      cases hx : s.flatMap escChar ++ r with
      | nil => rfl
      | cons d t =>
        rw [unescape, if_neg]
        rintro ⟨_, rfl⟩
        exact hne ';' (by rw [hx]; rfl) rfl

theorem flatMap_escChar_of_not_mem {s : Str} (h : ';' ∉ s) : s.flatMap escChar = s := by
  induction s with
  | nil => rfl
  | cons c s ih =>
    simp only [List.mem_cons, not_or] at h
    rw [List.flatMap_cons, ih h.2, escChar, if_neg (Ne.symm h.1)]
    rfl

/-! ## joining and splitting -/

theorem pieces_ne_nil (sep : Char) (s : Str) : pieces sep s ≠ [] := by
  cases s with
  | nil => simp [pieces]
  | cons c s =>
    rw [pieces]
    split
    · simp
    · split <;> simp

theorem pieces_append {sep : Char} {s : Str} (h : sep ∉ s) (r : Str) :
    pieces sep (s ++ sep :: r) = s :: pieces sep r := by
  induction s with
  | nil => simp [pieces]
  | cons c s ih =>
    simp only [List.mem_cons, not_or] at h
    rw [List.cons_append, pieces, if_neg (Ne.symm h.1), ih h.2]

theorem pieces_of_not_mem {sep : Char} {s : Str} (h : sep ∉ s) : pieces sep s = [s] := by
  induction s with
  | nil => rfl
  | cons c s ih =>
    simp only [List.mem_cons, not_or] at h
    rw [pieces, if_neg (Ne.symm h.1), ih h.2]

theorem pieces_joinWith {sep : Char} : ∀ (l : List Str), l ≠ [] → (∀ s ∈ l, sep ∉ s) →
    pieces sep (joinWith [sep] l) = l
  | [], h, _ => absurd rfl h
  | [s], _, h => by rw [joinWith]; exact pieces_of_not_mem (h s (by simp))
  | s :: t :: rest, _, h => by
    rw [joinWith, List.append_assoc]
    change pieces sep (s ++ sep :: joinWith [sep] (t :: rest)) = _
    rw [pieces_append (h s (by simp)), pieces_joinWith (t :: rest) (by simp) (fun x hx => h x (by simp [hx]))]

/-- The text of one `key=value` item. -/
def kvItem (p : Str × Val) : Str := p.1 ++ "=".toList ++ p.2.str

theorem createKv_aux (kvs : PDict Str Val) (s : Str) :
    (kvs.foldl kvStep (s, false)).1 = s ++ kvs.flatMap (fun p => '\\' :: ';' :: kvItem p) := by
  induction kvs generalizing s with
  | nil => simp
  | cons p kvs ih =>
    rw [List.foldl_cons]
    have : kvStep (s, false) p = (s ++ ('\\' :: ';' :: kvItem p), false) := rfl
    rw [this, ih]
    simp

theorem joinWith_cons (sep s : Str) (l : List Str) : joinWith sep (s :: l) = s ++ l.flatMap (fun t => sep ++ t) := by
  induction l generalizing s with
  | nil => simp [joinWith]
  | cons t l ih => rw [joinWith, ih]; simp

theorem createKv_eq (kvs : PDict Str Val) : createKvString kvs = joinWith "\\;".toList (kvs.map kvItem) := by
  cases kvs with
  | nil => rfl
  | cons p kvs =>
    rw [createKvString, List.foldl_cons]
    have : kvStep ([], true) p = (kvItem p, false) := rfl
    rw [this, createKv_aux, List.map_cons, joinWith_cons, List.flatMap_map]
    rfl

theorem unescape_joinWith (l : List Str) (h : ∀ s ∈ l, ';' ∉ s) :
    unescape (joinWith "\\;".toList l) = joinWith ";".toList l := by
  cases l with
  | nil => rfl
  | cons s l =>
    rw [joinWith_cons, joinWith_cons]
    induction l generalizing s with
    | nil =>
      have := unescape_escape_append s [] (by simp)
      rw [flatMap_escChar_of_not_mem (h s (by simp))] at this
      simpa [unescape] using this
    | cons t l ih =>
      have h1 := unescape_escape_append s ((t :: l).flatMap (fun t => "\\;".toList ++ t)) (by
        intro c hc
        simp at hc
        rw [← hc]; decide)
      rw [flatMap_escChar_of_not_mem (h s (by simp))] at h1
      rw [h1]
      have h2 : (t :: l).flatMap (fun t => "\\;".toList ++ t)
          = '\\' :: ';' :: (t ++ l.flatMap (fun t => "\\;".toList ++ t)) := by simp
      rw [h2, unescape_sep, ih t (fun x hx => h x (by simp at hx; simp; right; exact hx))]
      simp

theorem stringArgument_eq (l : List Str) : stringArgument l = l.flatMap (fun el => el ++ [' ']) := by
  have key : ∀ (l : List Str) (s : Str), l.foldl (fun s el => (s ++ el) ++ " ".toList) s
      = s ++ l.flatMap (fun el => el ++ [' ']) := by
    intro l
    induction l with
    | nil => intro s; simp
    | cons a l ih => intro s; rw [List.foldl_cons, ih]; simp
  exact (key l []).trans (List.nil_append _)

theorem experimentName_eq (b : Str) (d : PDict Str Val) :
    experimentName b d = b ++ d.flatMap (fun p => '_' :: (p.1 ++ ('_' :: p.2.str))) := by
  rw [experimentName, foldl_append_flatMap]
  congr 1
  simp [List.flatMap]

theorem append_sep_inj {sep : Char} {a a' r r' : Str} (ha : sep ∉ a) (ha' : sep ∉ a')
    (h : a ++ sep :: r = a' ++ sep :: r') : a = a' ∧ r = r' := by
  induction a generalizing a' with
  | nil =>
    cases a' with
    | nil => simpa using h
    | cons c a' =>
      simp only [List.nil_append, List.cons_append, List.cons.injEq] at h
      exact absurd (by rw [h.1]; simp) ha'
  | cons c a ih =>
    cases a' with
    | nil =>
      simp only [List.nil_append, List.cons_append, List.cons.injEq] at h
      exact absurd (by rw [← h.1]; simp) ha
    | cons c' a' =>
      simp only [List.cons_append, List.cons.injEq] at h
      simp only [List.mem_cons, not_or] at ha ha'
      obtain ⟨h1, h2⟩ := ih ha.2 ha'.2 h.2
      exact ⟨by rw [h.1, h1], h2⟩

/-- The name suffix determines the texts of all values, if all but the last have no underscore. -/
theorem suffix_inj : ∀ (d d' : PDict Str Val), PDict.keys d = PDict.keys d' →
    (∀ p ∈ d.dropLast, '_' ∉ p.2.str) → (∀ p ∈ d'.dropLast, '_' ∉ p.2.str) →
    d.flatMap (fun p => '_' :: (p.1 ++ ('_' :: p.2.str))) = d'.flatMap (fun p => '_' :: (p.1 ++ ('_' :: p.2.str))) →
    d.map (fun p => p.2.str) = d'.map (fun p => p.2.str)
  | [], [], _, _, _, _ => rfl
  | [], p' :: d', hk, _, _, _ => by simp at hk
  | p :: d, [], hk, _, _, _ => by simp at hk
  | [p], [p'], hk, h, h', he => by
    simp only [PDict.keys_cons, List.cons.injEq] at hk
    simp only [List.flatMap_cons, List.flatMap_nil, List.append_nil, List.cons.injEq, true_and, hk.1] at he
    have := List.append_cancel_left he
    simp only [List.cons.injEq, true_and] at this
    simp [this]
  | [p], p' :: q' :: d', hk, _, _, _ => by simp at hk
  | p :: q :: d, [p'], hk, _, _, _ => by simp at hk
  | p :: q :: d, p' :: q' :: d', hk, h, h', he => by
    simp only [PDict.keys_cons, List.cons.injEq] at hk
    have e1 : ∀ (q : Str × Val) (d : PDict Str Val),
        (q :: d).flatMap (fun p => '_' :: (p.1 ++ ('_' :: p.2.str)))
        = '_' :: (q.1 ++ ('_' :: (q.2.str ++ d.flatMap (fun p => '_' :: (p.1 ++ ('_' :: p.2.str)))))) := by
      intro q d; simp
    rw [e1 p, e1 p', hk.1] at he
    simp only [List.cons.injEq, true_and] at he
    have he := List.append_cancel_left he
    simp only [List.cons.injEq, true_and] at he
    have hs := he
    rw [e1, e1] at hs
    have h1 := (append_sep_inj (h p (by simp)) (h' p' (by simp)) hs).1
    rw [h1] at he
    have he := List.append_cancel_left he
    have ih := suffix_inj (q :: d) (q' :: d') (by simp [hk.2.1, hk.2.2])
      (fun x hx => h x (by rw [List.dropLast_cons_of_ne_nil (by simp)]; exact List.mem_cons_of_mem _ hx))
      (fun x hx => h' x (by rw [List.dropLast_cons_of_ne_nil (by simp)]; exact List.mem_cons_of_mem _ hx)) he
    exact List.cons_eq_cons.2 ⟨h1, ih⟩

/-! ## numbers -/

/-- Reading a decimal number. -/
def readNat (s : Str) : Nat := s.foldl (fun n c => n * 10 + (c.toNat - 48)) 0

theorem digit_val {d : Nat} (h : d < 10) : (digit d).toNat - 48 = d := by
  have : ∀ d : Fin 10, (digit d).toNat - 48 = d := by decide
  exact this ⟨d, h⟩

theorem digit_ne_underscore {d : Nat} (h : d < 10) : digit d ≠ '_' := by
  have : ∀ d : Fin 10, digit d ≠ '_' := by decide
  exact this ⟨d, h⟩

theorem readNat_decimal (n : Nat) : readNat (decimal n) = n := by
  induction n using decimal.induct with
  | case1 n h => rw [decimal, if_pos h]; simp [readNat, digit_val h]
  | case2 n h ih =>
    rw [decimal, if_neg h, readNat, List.foldl_append]
    simp only [List.foldl_cons, List.foldl_nil]
    rw [digit_val (Nat.mod_lt _ (by omega))]
    change readNat (decimal (n / 10)) * 10 + n % 10 = n
    rw [ih]; omega

theorem readNat_decimal02 (n : Nat) : readNat (decimal02 n) = n := by
  unfold decimal02
  split
  · have := readNat_decimal n
    unfold readNat at this ⊢
    rw [List.foldl_cons]
    exact this
  · exact readNat_decimal n

theorem underscore_decimal (n : Nat) : '_' ∉ decimal n := by
  induction n using decimal.induct with
  | case1 n h => rw [decimal, if_pos h]; simpa using (digit_ne_underscore h).symm
  | case2 n h ih =>
    rw [decimal, if_neg h]
    simp only [List.mem_append, List.mem_singleton, not_or]
    exact ⟨ih, (digit_ne_underscore (Nat.mod_lt _ (by omega))).symm⟩

theorem underscore_decimal02 (n : Nat) : '_' ∉ decimal02 n := by
  unfold decimal02
  split
  · simp only [List.mem_cons, not_or]
    exact ⟨by decide, underscore_decimal n⟩
  · exact underscore_decimal n

/-! ## merging -/

/-- What `mergeArgs` writes for one value, if anything. -/
def written : Val → Option Val
  | .bool true => some .none
  | .bool false => none
  | v => some v

theorem mergeArgs_cons (m : PDict Str Val) (p : Str × Val) (add : PDict Str Val) :
    mergeArgs m (p :: add) = mergeArgs (match written p.2 with | some v => m.set p.1 v | none => m) add := by
  obtain ⟨k, v⟩ := p
  cases v with
  | none => rfl
  | bool b => cases b <;> rfl
  | text s => rfl

theorem get?_mergeArgs (add : PDict Str Val) (hn : (PDict.keys add).Nodup) (m : PDict Str Val) (k : Str) :
    PDict.get? (mergeArgs m add) k = ((PDict.get? add k).bind written).or (PDict.get? m k) := by
  induction add generalizing m with
  | nil => rfl
  | cons p add ih =>
    simp only [PDict.keys_cons, List.nodup_cons] at hn
    rw [mergeArgs_cons, ih hn.2, PDict.get?_cons]
    by_cases hk : p.1 = k
    · rw [if_pos hk, PDict.get?_eq_none_iff.2 (by rw [← hk]; exact hn.1)]
      simp only [Option.bind_none, Option.none_or, Option.bind_some]
      cases hw : written p.2 with
      | none => rfl
      | some v => simp only [PDict.get?_set, hk, if_true]; rfl
    · rw [if_neg hk]
      cases hw : written p.2 with
      | none => rfl
      | some v => simp only [PDict.get?_set, hk, if_false]

/-! ## running -/

variable {J : Type}

theorem runOne_finished (name : J → Str) (r : Bool) (ok : J → Bool) (w : World J) (j : J) {n : Str}
    (h : n ∈ w.finished) : n ∈ (runOne name r ok w j).finished := by
  unfold runOne
  split
  · exact h
  · dsimp only
    split
    · simp [h]
    · exact h

theorem runAll_finished (name : J → Str) (r : Bool) (ok : J → Bool) (js : List J) (w : World J) {n : Str}
    (h : n ∈ w.finished) : n ∈ (runAll name r ok w js).finished := by
  induction js generalizing w with
  | nil => exact h
  | cons j js ih => exact ih _ (runOne_finished name r ok w j h)

theorem runAll_cons (name : J → Str) (r : Bool) (ok : J → Bool) (j : J) (js : List J) (w : World J) :
    runAll name r ok w (j :: js) = runAll name r ok (runOne name r ok w j) js := rfl

/-- What a complete sweep with skipping executes, if the names are pairwise different. -/
theorem runAll_log (name : J → Str) (ok : J → Bool) (js : List J) (hn : (js.map name).Nodup) (w : World J) :
    (runAll name true ok w js).log =
      w.log ++ (js.filter (fun j => !w.finished.contains (name j))).map (fun j => (j, ok j)) := by
  induction js generalizing w with
  | nil => simp [runAll]
  | cons j js ih =>
    simp only [List.map_cons, List.nodup_cons] at hn
    rw [runAll_cons, ih hn.2]
    have hfin : ∀ i ∈ js, (runOne name true ok w j).finished.contains (name i) = w.finished.contains (name i) := by
      intro i hi
      have hne : name i ≠ name j := fun e => hn.1 (e ▸ List.mem_map_of_mem hi)
      unfold runOne
      split
      · rfl
      · dsimp only
        split
        · simp [hne]
        · rfl
    have hfilter : js.filter (fun i => !(runOne name true ok w j).finished.contains (name i))
        = js.filter (fun i => !w.finished.contains (name i)) := by
      apply List.filter_congr
      intro i hi
      rw [hfin i hi]
    rw [hfilter, List.filter_cons]
    unfold runOne
    by_cases hc : w.finished.contains (name j) = true
    · simp only [hc, Bool.and_true, if_true, Bool.not_true]
      rfl
    · simp only [Bool.not_eq_true] at hc
      simp only [hc, Bool.false_and, Bool.false_eq_true, if_false, Bool.not_false, if_true, List.append_assoc,
        List.map_cons, List.cons_append, List.nil_append]

/-- After a round the job is finished if its run succeeds. -/
theorem runAll_complete (name : J → Str) (r : Bool) (ok : J → Bool) (js : List J) (w : World J) :
    ∀ j ∈ js, ok j = true → name j ∈ (runAll name r ok w js).finished := by
  induction js generalizing w with
  | nil => simp
  | cons i js ih =>
    intro j hj hok
    rw [runAll_cons]
    rcases List.mem_cons.1 hj with rfl | hj
    · apply runAll_finished
      unfold runOne
      split
      · next h =>
        simp only [Bool.and_eq_true, List.contains_iff_mem] at h
        exact h.1
      · simp
    · exact ih _ j hj hok

/-- Invariant of a history: `w0` is the start.  Nothing that is finished is executed again. -/
structure Inv (name : J → Str) (f0 : List Str) (w : World J) : Prop where
  start : ∀ n ∈ f0, n ∈ w.finished
  done : ∀ e ∈ w.log, e.2 = true → name e.1 ∈ w.finished
  once : w.log.Pairwise (fun a b => a.2 = true → name b.1 ≠ name a.1)
  notStart : ∀ e ∈ w.log, name e.1 ∉ f0
  only : ∀ n ∈ w.finished, n ∈ f0 ∨ ∃ e ∈ w.log, e.2 = true ∧ name e.1 = n

theorem Inv.runOne {name : J → Str} {f0 : List Str} {w : World J} (h : Inv name f0 w) (ok : J → Bool) (j : J) :
    Inv name f0 (runOne name true ok w j) := by
  unfold Cli.runOne
  split
  · exact h
  · next hc =>
    simp only [Bool.and_true, List.contains_iff_mem] at hc
    refine ⟨?_, ?_, ?_, ?_, ?_⟩
    · intro n hn
      dsimp only
      split
      · simp [h.start n hn]
      · exact h.start n hn
    · intro e he hok
      dsimp only at he ⊢
      rcases List.mem_append.1 he with he | he
      · have := h.done e he hok
        split
        · simp [this]
        · exact this
      · simp only [List.mem_singleton] at he
        subst he
        dsimp only at hok
        rw [if_pos hok]
        simp
    · dsimp only
      rw [List.pairwise_append]
      refine ⟨h.once, by simp, ?_⟩
      intro a ha b hb hok
      simp only [List.mem_singleton] at hb
      subst hb
      intro e
      exact hc (by rw [e]; exact h.done a ha hok)
    · intro e he
      rcases List.mem_append.1 he with he | he
      · exact h.notStart e he
      · simp only [List.mem_singleton] at he
        subst he
        exact fun hm => hc (h.start _ hm)
    · intro n hn
      dsimp only at hn ⊢
      have old : ∀ n ∈ w.finished, n ∈ f0 ∨ ∃ e ∈ w.log ++ [(j, ok j)], e.2 = true ∧ name e.1 = n := by
        intro n hn
        rcases h.only n hn with h0 | ⟨e, he, h1⟩
        · exact Or.inl h0
        · exact Or.inr ⟨e, by simp [he], h1⟩
      split at hn
      · next hok =>
        rcases List.mem_append.1 hn with hn | hn
        · exact old n hn
        · simp only [List.mem_singleton] at hn
          exact Or.inr ⟨(j, ok j), by simp, hok, hn.symm⟩
      · exact old n hn

theorem Inv.runAll {name : J → Str} {f0 : List Str} (ok : J → Bool) (js : List J) {w : World J} (h : Inv name f0 w) :
    Inv name f0 (runAll name true ok w js) := by
  induction js generalizing w with
  | nil => exact h
  | cons j js ih => exact ih (h.runOne ok j)

theorem Inv.history {name : J → Str} {f0 : List Str} (js : List J) (as : List (Nat × (J → Bool))) {w : World J}
    (h : Inv name f0 w) : Inv name f0 (history name js w as) := by
  induction as generalizing w with
  | nil => exact h
  | cons a as ih => exact ih (Inv.runAll a.2 _ h)

end Verif.Cli
