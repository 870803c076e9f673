import Verif.Latex.Model
import Mathlib.Data.List.Basic
import Mathlib.Data.List.Infix

/-!
# C44: escaping LaTeX special characters
-/

namespace Verif.Latex

/-- The twelve characters that LaTeX treats specially. -/
def special : List Char := "&%$#_{}~^\\<>".toList

theorem code_of_not_special {c : Char} (h : c ∉ special) : code c = [c] := by
  have : conv.lookup c = none := by
    rw [List.lookup_eq_none_iff]
    intro p hp
    have : ∀ p ∈ conv, p.1 ∈ special := by decide
    have := this p hp
    by_contra hne
    simp at hne
    exact h (hne ▸ this)
  rw [code, this]

theorem code_mem_of_special {c : Char} (h : c ∈ special) : (c, code c) ∈ conv := by
  have : ∀ c ∈ special, (c, code c) ∈ conv := by decide
  exact this c h

theorem backslash_special : '\\' ∈ special := by decide

/-- No code word is the beginning of another one. -/
theorem prefix_free {c c' : Char} {r r' : List Char} (h : code c ++ r = code c' ++ r') : c = c' := by
  have hhead : ∀ p ∈ conv, p.2.head? = some '\\' := by decide
  have hfree : ∀ p ∈ conv, ∀ q ∈ conv, p.2 <+: q.2 → p.1 = q.1 := by decide
  have hcode : ∀ {c : Char} {r : List Char}, c ∈ special → (code c ++ r).head? = some '\\' := by
    intro c r hc
    have := hhead _ (code_mem_of_special hc)
    simp only at this
    rw [List.head?_append, this]; rfl
  by_cases hc : c ∈ special
  · by_cases hc' : c' ∈ special
    · have h1 : code c <+: code c' ++ r' := ⟨r, h⟩
      have h2 : code c' <+: code c' ++ r' := ⟨r', rfl⟩
      rcases List.prefix_or_prefix_of_prefix h1 h2 with hp | hp
      · exact hfree _ (code_mem_of_special hc) _ (code_mem_of_special hc') hp
      · exact (hfree _ (code_mem_of_special hc') _ (code_mem_of_special hc) hp).symm
    · exfalso
      have := hcode (r := r) hc
      rw [h, code_of_not_special hc'] at this
      simp at this
      exact hc' (this ▸ backslash_special)
  · by_cases hc' : c' ∈ special
    · exfalso
      have := hcode (r := r') hc'
      rw [← h, code_of_not_special hc] at this
      simp at this
      exact hc (this ▸ backslash_special)
    · rw [code_of_not_special hc, code_of_not_special hc'] at h
      simpa using (List.cons.inj h).1

/-- **C44.** Escaping works piece by piece: escaping a concatenation is the concatenation of the escapes. -/
theorem C44_append (s t : List Char) : escape (s ++ t) = escape s ++ escape t := by
  induction s with
  | nil => rfl
  | cons c s ih => rw [List.cons_append, escape, escape, ih, List.append_assoc]

/-- **C44.** Different texts have different escapes. -/
theorem C44_injective (s t : List Char) (h : escape s = escape t) : s = t := by
  have hne : ∀ c, code c ≠ [] := by
    intro c
    by_cases hc : c ∈ special
    · have : ∀ p ∈ conv, p.2 ≠ [] := by decide
      exact this _ (code_mem_of_special hc)
    · rw [code_of_not_special hc]; simp
  induction s generalizing t with
  | nil =>
    cases t with
    | nil => rfl
    | cons c t =>
      rw [escape, escape] at h
      exact absurd (List.append_eq_nil_iff.1 h.symm).1 (hne c)
  | cons c s ih =>
    cases t with
    | nil =>
      rw [escape, escape] at h
      exact absurd (List.append_eq_nil_iff.1 h).1 (hne c)
    | cons c' t =>
      rw [escape, escape] at h
      have := prefix_free h
      subst this
      rw [ih t (List.append_cancel_left h)]

/-- **C44.** A text without special characters is unchanged. -/
theorem C44_plain (s : List Char) (h : ∀ c ∈ s, c ∉ special) : escape s = s := by
  induction s with
  | nil => rfl
  | cons c s ih =>
    rw [escape, code_of_not_special (h c (by simp)), ih (fun d hd => h d (by simp [hd]))]
    rfl

/-- **C44.** Conversely a text with a special character is changed: its escape is longer. -/
theorem C44_special_changed (s : List Char) (c : Char) (hc : c ∈ special) (h : c ∈ s) : s.length < (escape s).length := by
  have hlen : ∀ d, 1 ≤ (code d).length := by
    intro d
    by_cases hd : d ∈ special
    · have : ∀ p ∈ conv, 1 ≤ p.2.length := by decide
      exact this _ (code_mem_of_special hd)
    · rw [code_of_not_special hd]; simp
  have hlen2 : 2 ≤ (code c).length := by
    have : ∀ p ∈ conv, 2 ≤ p.2.length := by decide
    exact this _ (code_mem_of_special hc)
  have hge : ∀ s, s.length ≤ (escape s).length := by
    intro s
    induction s with
    | nil => simp [escape]
    | cons d s ih =>
      rw [escape, List.length_append, List.length_cons]
      have := hlen d; omega
  induction s with
  | nil => simp at h
  | cons d s ih =>
    rw [escape, List.length_append, List.length_cons]
    rcases List.mem_cons.1 h with rfl | h
    · have := hge s; omega
    · have := ih h
      have := hlen d; omega

/-- **C44.** In the escaped text an active character (`&`, `%`, `$`, `#`, `_`, `~`, `^`, `<`, `>`) only occurs directly after a backslash. -/
theorem C44_active_protected (s a b : List Char) (x : Char) (hx : x ∈ "&%$#_~^<>".toList) (h : escape s = a ++ x :: b) :
    ∃ a', a = a' ++ ['\\'] := by
  -- position of active characters inside the code words
  have hword : ∀ p ∈ conv, ∀ i : Fin 18, ∀ y ∈ "&%$#_~^<>".toList, p.2[i.val]? = some y → i.val ≠ 0 ∧ p.2[i.val - 1]? = some '\\' := by
    decide
  have hlen : ∀ p ∈ conv, p.2.length ≤ 18 := by decide
  have hact : ∀ y ∈ "&%$#_~^<>".toList, y ∈ special := by decide
  induction s generalizing a with
  | nil => simp [escape] at h
  | cons c s ih =>
    rw [escape] at h
    rw [List.append_eq_append_iff] at h
    rcases h with ⟨t, ha, hb⟩ | ⟨t, ha, hb⟩
    · -- the character is behind the first code word
      obtain ⟨a', ha'⟩ := ih t hb
      exact ⟨code c ++ a', by rw [ha, ha']; simp⟩
    · cases t with
      | nil =>
        simp only [List.nil_append] at hb
        simp only [List.append_nil] at ha
        obtain ⟨a', ha'⟩ := ih [] hb.symm
        simp at ha'
      | cons y t =>
        simp only [List.cons_append, List.cons.injEq] at hb
        obtain ⟨rfl, _⟩ := hb
        by_cases hc : c ∈ special
        · have hi : (code c)[a.length]? = some x := by rw [ha]; simp
          have hl : a.length < (code c).length := (List.getElem?_eq_some_iff.1 hi).1
          have h18 := hlen _ (code_mem_of_special hc)
          simp only at h18
          obtain ⟨h0, h1⟩ := hword _ (code_mem_of_special hc) ⟨a.length, by omega⟩ x hx hi
          simp only at h0 h1
          rw [ha, List.getElem?_append_left (by omega)] at h1
          refine ⟨a.dropLast, ?_⟩
          have hne : a ≠ [] := by intro e; exact h0 (by rw [e]; rfl)
          rw [← List.getLast?_eq_getElem?] at h1
          rw [List.getLast?_eq_some_getLast hne] at h1
          simp only [Option.some.injEq] at h1
          rw [← h1, List.dropLast_append_getLast hne]
        · rw [code_of_not_special hc] at ha
          cases a with
          | nil =>
            simp only [List.nil_append, List.cons.injEq] at ha
            exact absurd (ha.1 ▸ hact x hx) hc
          | cons z a =>
            simp at ha

/-- What LaTeX prints for a text: plain characters print themselves, a backslash followed by a symbol prints the symbol, `\\^{}` a circumflex
and four commands (followed by an empty group) a character each.  Nothing else is in this table: for instance two backslashes are a line
break and an unprotected special character is an error or has another meaning. -/
inductive Prints : List Char → List Char → Prop
  | nil : Prints [] []
  | plain {c : Char} {s t} : c ∉ special → Prints s t → Prints (c :: s) (c :: t)
  | symbol {c : Char} {s t} : c ∈ "&%$#_{}".toList → Prints s t → Prints ('\\' :: c :: s) (c :: t)
  | circumflex {s t} : Prints s t → Prints ("\\^{}".toList ++ s) ('^' :: t)
  | tilde {s t} : Prints s t → Prints ("\\textasciitilde{}".toList ++ s) ('~' :: t)
  | backslash {s t} : Prints s t → Prints ("\\textbackslash{}".toList ++ s) ('\\' :: t)
  | less {s t} : Prints s t → Prints ("\\textless{}".toList ++ s) ('<' :: t)
  | greater {s t} : Prints s t → Prints ("\\textgreater{}".toList ++ s) ('>' :: t)

/-- **C44.** LaTeX prints the original text. -/
theorem C44_prints (s : List Char) : Prints (escape s) s := by
  induction s with
  | nil => exact .nil
  | cons c s ih =>
    rw [escape]
    by_cases hc : c ∈ special
    · have hl : c ∈ ['&', '%', '$', '#', '_', '{', '}', '~', '^', '\\', '<', '>'] := hc
      simp only [List.mem_cons, List.not_mem_nil, or_false] at hl
      rcases hl with rfl | rfl | rfl | rfl | rfl | rfl | rfl | rfl | rfl | rfl | rfl | rfl
      · exact .symbol (by decide) ih
      · exact .symbol (by decide) ih
      · exact .symbol (by decide) ih
      · exact .symbol (by decide) ih
      · exact .symbol (by decide) ih
      · exact .symbol (by decide) ih
      · exact .symbol (by decide) ih
      · exact .tilde ih
      · exact .circumflex ih
      · exact .backslash ih
      · exact .less ih
      · exact .greater ih
    · rw [code_of_not_special hc]
      exact .plain hc ih

example : escape "a_b\\".toList = "a\\_b\\textbackslash{}".toList := by decide

end Verif.Latex
