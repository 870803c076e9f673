import Verif.Shell.Model
import Verif.Shell.Spec
import Verif.Cli.Lemmas

/-!
# Lemmas for C78
-/

namespace Verif.Shell
open Verif Verif.Cli

/-- Reading a text from a given state on. -/
def run (l : Reader) (s : Str) : Option Reader := s.foldlM step l

theorem run_nil (l : Reader) : run l [] = some l := rfl

theorem run_cons (l : Reader) (c : Char) (s : Str) : run l (c :: s) = (step l c).bind fun l' => run l' s := rfl

theorem run_append (l : Reader) (s t : Str) : run l (s ++ t) = (run l s).bind fun l' => run l' t := by
  induction s generalizing l with
  | nil => rfl
  | cons c s ih =>
    rw [List.cons_append, run_cons, run_cons]
    cases step l c with
    | none => rfl
    | some l' => exact ih l'

theorem run_append_of {l l' : Reader} {s : Str} (h : run l s = some l') (t : Str) : run l (s ++ t) = run l' t := by
  rw [run_append, h]
  rfl

theorem tokens_of {s : Str} {l : Reader} (h : run ⟨.plain, none, []⟩ s = some l) (hm : l.mode = .plain) : tokens s = some l.flush.toks := by
  unfold tokens
  have h : s.foldlM step ⟨.plain, none, []⟩ = some l := h
  rw [h]
  simp [hm]

/-! ## Words outside of quotes -/

theorem step_plain {c : Char} (hc : c ∉ special) (cur : Option Str) (toks : List Tok) : step ⟨.plain, cur, toks⟩ c = some ⟨.plain, some (cur.getD [] ++ [c]), toks⟩ := by
  have h : ∀ d ∈ special, c ≠ d := fun d hd e => hc (e ▸ hd)
  simp only [step, plainStep, if_neg (h ' ' (by decide)), if_neg (h '\\' (by decide)), if_neg (h '"' (by decide)), if_neg (h '\'' (by decide)), if_neg (h '&' (by decide)),
    if_neg (h '>' (by decide)), if_neg (h ')' (by decide)), if_neg hc, Reader.push]

theorem run_word {s : Str} (h : Plain s) (w : Str) (toks : List Tok) : run ⟨.plain, some w, toks⟩ s = some ⟨.plain, some (w ++ s), toks⟩ := by
  induction s generalizing w with
  | nil => rw [run_nil, List.append_nil]
  | cons c s ih =>
    rw [run_cons, step_plain (h c (by simp))]
    refine (ih (fun d hd => h d (by simp [hd])) _).trans ?_
    simp

/-- The text `s` is read as (a part of) a word, as the text `t`. -/
def Reads (s t : Str) : Prop := ∀ cur toks, run ⟨.plain, cur, toks⟩ s = some ⟨.plain, some (cur.getD [] ++ t), toks⟩

theorem reads_append {s t s' t' : Str} (h : Reads s t) (h' : Reads s' t') : Reads (s ++ s') (t ++ t') := fun cur toks => by
  rw [run_append_of (h cur toks), h']
  simp

theorem reads_plain {s : Str} (hs : s ≠ []) (h : Plain s) : Reads s s := by
  intro cur toks
  cases s with
  | nil => exact absurd rfl hs
  | cons c s =>
    rw [run_cons, step_plain (h c (by simp))]
    refine (run_word (fun d hd => h d (by simp [hd])) _ _).trans ?_
    simp

theorem reads_semicolon : Reads ['\\', ';'] [';'] := fun _ _ => rfl

theorem reads_escape {t : Str} (hne : t ≠ []) (h : ∀ c ∈ t, c = ';' ∨ c ∉ special) : Reads (escapeSemicolons t) t := by
  have e : ∀ c, c = ';' ∨ c ∉ special → Reads (escChar c) [c] := by
    rintro c (rfl | hc)
    · exact reads_semicolon
    · have hc' : c ≠ ';' := fun e => hc (e ▸ by decide)
      rw [escChar, if_neg hc']
      exact reads_plain (by simp) fun d hd => by rw [List.mem_singleton.1 hd]; exact hc
  rw [escape_eq]
  induction t with
  | nil => exact absurd rfl hne
  | cons c t ih =>
    rw [List.flatMap_cons]
    cases t with
    | nil => simpa using e c (h c (by simp))
    | cons d t => exact reads_append (e c (h c (by simp))) (ih (by simp) fun x hx => h x (by simp [hx]))

theorem run_sq {t : Str} (h : '\'' ∉ t) (w : Str) (toks : List Tok) : run ⟨.sq, some w, toks⟩ (t ++ ['\'']) = some ⟨.plain, some (w ++ t), toks⟩ := by
  induction t generalizing w with
  | nil => rw [List.append_nil]; rfl
  | cons c t ih =>
    rw [List.cons_append, run_cons]
    have hc : c ≠ '\'' := fun e => h (by simp [e])
    have : step ⟨.sq, some w, toks⟩ c = some ⟨.sq, some (w ++ [c]), toks⟩ := by simp [step, hc, Reader.push]
    rw [this]
    refine (ih (fun hm => h (by simp [hm])) _).trans ?_
    simp

theorem reads_quoted {t : Str} (h : '\'' ∉ t) : Reads (['\''] ++ t ++ ['\'']) t := by
  intro cur toks
  exact run_sq h _ toks

/-- Arguments, each followed by a space. -/
theorem run_arguments (l : List (Str × Str)) (h : ∀ a ∈ l, Reads a.1 a.2) (toks : List Tok) :
    run ⟨.plain, none, toks⟩ (stringArgument (l.map Prod.fst)) = some ⟨.plain, none, toks ++ l.map fun a => .word a.2⟩ := by
  rw [stringArgument_eq]
  induction l generalizing toks with
  | nil => simp [run_nil]
  | cons a l ih =>
    rw [List.map_cons, List.flatMap_cons, List.append_assoc, run_append_of (h a (by simp) none toks)]
    rw [List.singleton_append, run_cons]
    have : step ⟨.plain, some (Option.getD (none : Option Str) [] ++ a.2), toks⟩ ' ' = some ⟨.plain, none, toks ++ [.word a.2]⟩ := by
      simp [step, plainStep, Reader.flush]
    rw [this]
    refine (ih (fun b hb => h b (by simp [hb])) _).trans ?_
    simp

/-! ## Inside double quotes -/

/-- A text that double quotes leave as it is. -/
def Kept (s : Str) : Prop := ∀ w toks, run ⟨.dq, some w, toks⟩ s = some ⟨.dq, some (w ++ s), toks⟩

theorem kept_nil : Kept [] := fun w toks => by rw [run_nil, List.append_nil]

theorem kept_append {s t : Str} (h : Kept s) (h' : Kept t) : Kept (s ++ t) := fun w toks => by
  rw [run_append_of (h w toks), h', List.append_assoc]

/-- Characters that mean something inside double quotes. -/
def inQuotes : List Char := ['"', '\\', '$', '`']

theorem step_dq {c : Char} (hc : c ∉ inQuotes) (w : Str) (toks : List Tok) : step ⟨.dq, some w, toks⟩ c = some ⟨.dq, some (w ++ [c]), toks⟩ := by
  have h : ∀ d ∈ inQuotes, c ≠ d := fun d hd e => hc (e ▸ hd)
  simp [step, h '"' (by decide), h '\\' (by decide), h '$' (by decide), h '`' (by decide), Reader.push]

theorem kept_of {s : Str} (h : ∀ c ∈ s, c ∉ inQuotes) : Kept s := by
  intro w toks
  induction s generalizing w with
  | nil => rw [run_nil, List.append_nil]
  | cons c s ih =>
    rw [run_cons, step_dq (h c (by simp))]
    refine (ih (fun d hd => h d (by simp [hd])) _).trans ?_
    simp

theorem inQuotes_special : ∀ c ∈ inQuotes, c ∈ special := by decide

theorem kept_plain {s : Str} (h : Plain s) : Kept s := kept_of fun c hc hq => h c hc (inQuotes_special c hq)

theorem kept_semicolon : Kept ['\\', ';'] := fun w toks => by
  have : run ⟨.dq, some w, toks⟩ ['\\', ';'] = some ⟨.dq, some ((w ++ ['\\']) ++ [';']), toks⟩ := rfl
  rw [this, List.append_assoc]
  rfl

theorem kept_escape {t : Str} (h : ∀ c ∈ t, c = ';' ∨ c ∉ special) : Kept (escapeSemicolons t) := by
  rw [escape_eq]
  induction t with
  | nil => exact kept_nil
  | cons c t ih =>
    rw [List.flatMap_cons]
    refine kept_append ?_ (ih fun x hx => h x (by simp [hx]))
    rcases h c (by simp) with rfl | hc
    · exact kept_semicolon
    · have hc' : c ≠ ';' := fun e => hc (e ▸ by decide)
      rw [escChar, if_neg hc']
      exact kept_plain fun d hd => by rw [List.mem_singleton.1 hd]; exact hc

theorem kept_arguments {l : List Str} (h : ∀ a ∈ l, Kept a) : Kept (stringArgument l) := by
  rw [stringArgument_eq]
  induction l with
  | nil => exact kept_nil
  | cons a l ih =>
    rw [List.flatMap_cons]
    exact kept_append (kept_append (h a (by simp)) (kept_of (by decide))) (ih fun b hb => h b (by simp [hb]))

/-! ## Commands -/

theorem words_map (l : List Str) (ts : List Tok) (h : (words ts).1 = []) : words (l.map Tok.word ++ ts) = (l, ts) := by
  induction l with
  | nil =>
    cases ts with
    | nil => rfl
    | cons t ts =>
      cases t with
      | word w => cases h
      | io s => rfl
      | op s => rfl
  | cons a l ih => rw [List.map_cons, List.cons_append, words, ih]

theorem splitAnd_none {ts : List Tok} (h : Tok.op "&&".toList ∉ ts) : splitAnd ts = [ts] := by
  induction ts with
  | nil => rfl
  | cons t ts ih => rw [splitAnd, if_neg (fun e => h (by simp [e])), ih fun hm => h (List.mem_cons_of_mem _ hm)]

theorem splitAnd_append {a b : List Tok} (h : Tok.op "&&".toList ∉ a) : splitAnd (a ++ Tok.op "&&".toList :: b) = a :: splitAnd b := by
  induction a with
  | nil => rw [List.nil_append, splitAnd, if_pos rfl]
  | cons t a ih => rw [List.cons_append, splitAnd, if_neg (fun e => h (by simp [e])), ih fun hm => h (List.mem_cons_of_mem _ hm)]

theorem not_and_map (l : List Str) : Tok.op "&&".toList ∉ l.map Tok.word := by simp

/-! ## Numbers -/

theorem digit_eq {d : Nat} (h : d < 10) : digit d = d.digitChar := by
  have : ∀ d : Fin 10, digit d = d.1.digitChar := by decide
  exact this ⟨d, h⟩

theorem decimal_eq (n : Nat) : decimal n = Nat.toDigits 10 n := by
  induction n using decimal.induct with
  | case1 n h => rw [decimal, if_pos h, Nat.toDigits_of_lt_base h, digit_eq h]
  | case2 n h ih =>
    rw [decimal, if_neg h, ih, Nat.toDigits_of_base_le (n := n) (by decide) (by omega), digit_eq (Nat.mod_lt _ (by decide))]

theorem decimalInt_eq (d : Int) : decimalInt d = (toString d).toList := by
  cases d with
  | ofNat n =>
    show decimal n = (toString n).toList
    rw [decimal_eq, Nat.toString_eq_repr, Nat.toList_repr]
  | negSucc n =>
    show '-' :: decimal (n + 1) = ("-" ++ toString (n + 1)).toList
    rw [decimal_eq, Nat.toString_eq_repr, String.toList_append, Nat.toList_repr]
    rfl

theorem digit_plain {d : Nat} (h : d < 10) : digit d ∉ special := by
  have : ∀ d : Fin 10, digit d ∉ special := by decide
  exact this ⟨d, h⟩

theorem decimal_plain (n : Nat) : Plain (decimal n) := by
  induction n using decimal.induct with
  | case1 n h =>
    rw [decimal, if_pos h]
    exact fun c hc => by rw [List.mem_singleton.1 hc]; exact digit_plain h
  | case2 n h ih =>
    rw [decimal, if_neg h]
    intro c hc
    rcases List.mem_append.1 hc with hc | hc
    · exact ih c hc
    · rw [List.mem_singleton.1 hc]
      exact digit_plain (Nat.mod_lt _ (by decide))

theorem decimal_ne_nil (n : Nat) : decimal n ≠ [] := by
  rw [decimal]
  split <;> simp

theorem plain_append {s t : Str} (h : Plain s) (h' : Plain t) : Plain (s ++ t) := fun c hc => (List.mem_append.1 hc).elim (h c) (h' c)

theorem decimalInt_plain (d : Int) : Plain (decimalInt d) := by
  cases d with
  | ofNat n => exact decimal_plain n
  | negSucc n => exact plain_append (s := ['-']) (by decide) (decimal_plain _)

/-! ## The two shells -/

/-- The part of the inner line behind the alias. -/
def afterAlias (cuda : Option Int) (str : Str) (log : Option Str) : Str :=
  cuda.elim " && ".toList (fun d => " && CUDA_VISIBLE_DEVICES=".toList ++ decimalInt d) ++ " ".toList ++ str ++ log.elim [] (fun l => " > >(tee ".toList ++ l ++ ") 2>&1".toList)

theorem runCommand_eq (script : Str) (args : PDict Str Val) (path : Str) (cuda : Option Int) (log : Option Str) :
    runCommand script args path cuda log = "bash -c \"alias python=\"".toList ++ path ++ "\"".toList ++
      afterAlias cuda (stringArgument ("python".toList :: script :: makeArgList args)) log ++ "\"".toList := by
  unfold runCommand bashCommand bashPrecommand afterAlias
  cases cuda <;> cases log <;> simp

theorem kept_afterAlias {cuda : Option Int} {str : Str} {log : Option Str} (hs : Kept str) (hl : ∀ l ∈ log, Plain l) : Kept (afterAlias cuda str log) := by
  unfold afterAlias
  refine kept_append (kept_append (kept_append ?_ (kept_of (by decide))) hs) ?_
  · cases cuda with
    | none => exact kept_of (by decide)
    | some d => exact kept_append (kept_of (by decide)) (kept_plain (decimalInt_plain d))
  · cases log with
    | none => exact kept_nil
    | some l => exact kept_append (kept_append (kept_of (by decide)) (kept_plain (hl l rfl))) (kept_of (by decide))

theorem command_words (l : List Str) : command (l.map Tok.word) = some ⟨l.takeWhile isAssignment, l.dropWhile isAssignment, .inherited⟩ := by
  unfold command
  have := words_map l [] rfl
  rw [List.append_nil] at this
  rw [this]
  rfl

theorem programs_words {s : Str} {l : List Str} (h : tokens s = some (l.map Tok.word)) :
    programs s = some ([⟨l.takeWhile isAssignment, l.dropWhile isAssignment, .inherited⟩].filter fun p => p.argv.head? ≠ some "alias".toList) := by
  unfold programs commands
  rw [h]
  simp only [Option.bind_eq_bind, Option.bind_some, splitAnd_none (not_and_map l), List.mapM_cons, List.mapM_nil, command_words]
  rfl

theorem system_bash {s line : Str} {more : List Str} (h : tokens s = some (("bash".toList :: "-c".toList :: line :: more).map Tok.word)) : system s = programs line := by
  unfold system
  rw [programs_words h]
  have h1 : ("bash".toList :: "-c".toList :: line :: more).takeWhile isAssignment = [] := rfl
  have h2 : ("bash".toList :: "-c".toList :: line :: more).dropWhile isAssignment = "bash".toList :: "-c".toList :: line :: more := rfl
  rw [h1, h2]
  rfl

/-- The outer shell gives the line without the quotes to `bash`. -/
theorem outer {path rest : Str} (hp : Plain path) (hr : Kept rest) :
    system ("bash -c \"alias python=\"".toList ++ path ++ "\"".toList ++ rest ++ "\"".toList) = programs ("alias python=".toList ++ path ++ rest) := by
  refine system_bash (more := []) ?_
  have h1 : run ⟨.plain, none, []⟩ "bash -c \"alias python=\"".toList = some ⟨.plain, some "alias python=".toList, [.word "bash".toList, .word "-c".toList]⟩ := by decide +kernel
  have h2 := run_word hp "alias python=".toList [.word "bash".toList, .word "-c".toList]
  have h : run ⟨.plain, none, []⟩ ("bash -c \"alias python=\"".toList ++ path ++ "\"".toList ++ rest ++ "\"".toList) =
      some ⟨.plain, some ("alias python=".toList ++ path ++ rest), [.word "bash".toList, .word "-c".toList]⟩ := by
    rw [List.append_assoc, List.append_assoc, List.append_assoc, run_append_of h1, run_append_of h2]
    show (run ⟨.dq, some ("alias python=".toList ++ path), [.word "bash".toList, .word "-c".toList]⟩ (rest ++ "\"".toList)) = _
    rw [run_append_of (hr _ _)]
    rfl
  rw [tokens_of h rfl]
  rfl

theorem run_and (w : Str) (toks : List Tok) : run ⟨.plain, some w, toks⟩ " && ".toList = some ⟨.plain, none, toks ++ [.word w] ++ [.op "&&".toList]⟩ := rfl

theorem run_space (w : Str) (toks : List Tok) : run ⟨.plain, some w, toks⟩ " ".toList = some ⟨.plain, none, toks ++ [.word w]⟩ := rfl

theorem device_some (d : Int) : device (some d) = ["CUDA_VISIBLE_DEVICES=".toList ++ decimalInt d] := by
  rw [decimalInt_eq]
  show [("CUDA_VISIBLE_DEVICES=" ++ toString d).toList] = _
  rw [String.toList_append]

theorem run_device (w : Str) (toks : List Tok) (cuda : Option Int) :
    run ⟨.plain, some w, toks⟩ (cuda.elim " && ".toList (fun d => " && CUDA_VISIBLE_DEVICES=".toList ++ decimalInt d) ++ " ".toList) =
      some ⟨.plain, none, (toks ++ [.word w] ++ [.op "&&".toList]) ++ (device cuda).map .word⟩ := by
  cases cuda with
  | none =>
    show run _ (" && ".toList ++ " ".toList) = _
    rw [run_append_of (run_and w toks), show device none = [] from rfl, List.map_nil, List.append_nil]
    rfl
  | some d =>
    show run _ (" && CUDA_VISIBLE_DEVICES=".toList ++ decimalInt d ++ " ".toList) = _
    have e : " && CUDA_VISIBLE_DEVICES=".toList = " && ".toList ++ "CUDA_VISIBLE_DEVICES=".toList := by decide
    rw [e, List.append_assoc, List.append_assoc, run_append_of (run_and w toks), run_append_of (reads_plain (by decide) (by decide) none _),
      run_append_of (run_word (decimalInt_plain d) _ _), device_some]
    exact run_space _ _

theorem assignment_device (cuda : Option Int) (l : List Str) : (device cuda ++ "python".toList :: l).takeWhile isAssignment = device cuda ∧
    (device cuda ++ "python".toList :: l).dropWhile isAssignment = "python".toList :: l := by
  cases cuda with
  | none => exact ⟨rfl, rfl⟩
  | some d =>
    have hd : isAssignment ("CUDA_VISIBLE_DEVICES=".toList ++ decimalInt d) = true := rfl
    rw [device_some, List.singleton_append, List.takeWhile_cons_of_pos hd, List.dropWhile_cons_of_pos hd]
    exact ⟨rfl, rfl⟩

/-- The tokens of the redirection. -/
def redirection (log : Option Str) : List Tok :=
  log.elim [] fun l => [.op ">".toList, .op ">(".toList, .word "tee".toList, .word l, .op ")".toList, .io "2".toList, .op ">&".toList, .word "1".toList]

theorem output_redirection (log : Option Str) : output (redirection log) = some (logged log) := by
  cases log with
  | none => rfl
  | some l => rfl

theorem not_and_redirection (log : Option Str) : Tok.op "&&".toList ∉ redirection log := by
  cases log with
  | none => exact List.not_mem_nil
  | some l => simp [redirection]

theorem run_redirection (T : List Tok) {log : Option Str} (hl : ∀ l ∈ log, l ≠ [] ∧ Plain l) :
    ∃ r, run ⟨.plain, none, T⟩ (log.elim [] fun l => " > >(tee ".toList ++ l ++ ") 2>&1".toList) = some r ∧ r.mode = .plain ∧ r.flush.toks = T ++ redirection log := by
  cases log with
  | none => exact ⟨_, rfl, rfl, (List.append_nil T).symm⟩
  | some l =>
    obtain ⟨hne, hpl⟩ := hl l rfl
    have e1 : run ⟨.plain, none, T⟩ " > >(tee ".toList = some ⟨.plain, none, T ++ [.op ">".toList] ++ [.op ">(".toList] ++ [.word "tee".toList]⟩ := rfl
    have e2 : ∀ T, run ⟨.plain, some l, T⟩ ") 2>&1".toList = some ⟨.plain, some "1".toList, T ++ [.word l] ++ [.op ")".toList] ++ [.io "2".toList] ++ [.op ">&".toList]⟩ := fun T => rfl
    have e3 := (run_append_of e1 (l ++ ") 2>&1".toList)).trans ((run_append_of (reads_plain hne hpl none _) _).trans (e2 _))
    exact ⟨_, by rw [Option.elim_some, List.append_assoc]; exact e3, rfl, by simp [Reader.flush, redirection]⟩

/-- The commands of such a line. -/
theorem programs_of {s path : Str} {cuda : Option Int} {ws : List Str} {log : Option Str}
    (ht : tokens s = some (["alias".toList, "python=".toList ++ path].map Tok.word ++ Tok.op "&&".toList :: ((device cuda ++ "python".toList :: ws).map Tok.word ++ redirection log))) :
    programs s = some [⟨device cuda, "python".toList :: ws, logged log⟩] := by
  have hn : Tok.op "&&".toList ∉ (device cuda ++ "python".toList :: ws).map Tok.word ++ redirection log := by
    rw [List.mem_append, not_or]
    exact ⟨not_and_map _, not_and_redirection log⟩
  have hc : command ((device cuda ++ "python".toList :: ws).map Tok.word ++ redirection log) = some ⟨device cuda, "python".toList :: ws, logged log⟩ := by
    unfold command
    rw [words_map _ _ (by cases log <;> rfl)]
    simp only [output_redirection, assignment_device, Option.bind_eq_bind, Option.bind_some]
  have hal : command (["alias".toList, "python=".toList ++ path].map Tok.word) = some ⟨[], ["alias".toList, "python=".toList ++ path], .inherited⟩ := command_words _
  unfold programs commands
  rw [ht]
  simp only [Option.bind_eq_bind, Option.bind_some, splitAnd_append (not_and_map _), splitAnd_none hn, List.mapM_cons, List.mapM_nil, hc, hal]
  rfl

/-- The beginning of the inner line. -/
theorem run_begin {path : Str} (hp : Plain path) (cuda : Option Int) :
    run ⟨.plain, none, []⟩ ("alias python=".toList ++ path ++ (cuda.elim " && ".toList (fun d => " && CUDA_VISIBLE_DEVICES=".toList ++ decimalInt d) ++ " ".toList)) =
      some ⟨.plain, none, ([.word "alias".toList] ++ [.word ("python=".toList ++ path)] ++ [.op "&&".toList]) ++ (device cuda).map .word⟩ := by
  have h1 : run ⟨.plain, none, []⟩ ("alias python=".toList ++ path) = some ⟨.plain, some ("python=".toList ++ path), [.word "alias".toList]⟩ := by
    rw [run_append_of (l' := ⟨.plain, some "python=".toList, [.word "alias".toList]⟩) (by decide +kernel)]
    exact run_word hp _ _
  rw [run_append_of h1]
  exact run_device _ _ cuda

/-- The inner line is read as two commands. -/
theorem inner {path : Str} (hp : Plain path) (cuda : Option Int) {str : Str} {ws : List Str} (hr : ∀ T, run ⟨.plain, none, T⟩ str = some ⟨.plain, none, T ++ ("python".toList :: ws).map .word⟩)
    {log : Option Str} (hl : ∀ l ∈ log, l ≠ [] ∧ Plain l) :
    programs ("alias python=".toList ++ path ++ afterAlias cuda str log) = some [⟨device cuda, "python".toList :: ws, logged log⟩] := by
  refine programs_of (path := path) ?_
  obtain ⟨r, e1, e2, e3⟩ := run_redirection (([.word "alias".toList] ++ [.word ("python=".toList ++ path)] ++ [.op "&&".toList]) ++ (device cuda).map .word ++
    ("python".toList :: ws).map .word) hl
  have hh : run ⟨.plain, none, []⟩ ("alias python=".toList ++ path ++ afterAlias cuda str log) = some r := by
    unfold afterAlias
    rw [List.append_assoc (_ ++ _), ← List.append_assoc (_ ++ path), run_append_of (run_begin hp cuda)]
    exact (run_append_of (hr _) _).trans e1
  rw [tokens_of hh e2, e3]
  simp

theorem system_of {script path : Str} {args : PDict Str Val} {cuda : Option Int} {log : Option Str} (hs : script ≠ [] ∧ Plain script) (hp : Plain path)
    {l : List (Str × Str)} (h : makeArgList args = l.map Prod.fst) (ha : ∀ a ∈ l, Reads a.1 a.2 ∧ Kept a.1) (hl : ∀ l ∈ log, l ≠ [] ∧ Plain l) :
    system (runCommand script args path cuda log) = some [⟨device cuda, "python".toList :: script :: l.map Prod.snd, logged log⟩] := by
  rw [runCommand_eq, h]
  have hk : Kept (stringArgument ("python".toList :: script :: l.map Prod.fst)) := kept_arguments (by
    rw [List.forall_mem_cons, List.forall_mem_cons, List.forall_mem_map]
    exact ⟨kept_plain (by decide), kept_plain hs.2, fun a h => (ha a h).2⟩)
  rw [outer hp (kept_afterAlias hk fun l h => (hl l h).2)]
  refine inner hp cuda (fun T => ?_) hl
  have := run_arguments (("python".toList, "python".toList) :: (script, script) :: l)
    (List.forall_mem_cons.2 ⟨reads_plain (by decide) (by decide), List.forall_mem_cons.2 ⟨reads_plain hs.1 hs.2, fun a h => (ha a h).1⟩⟩) T
  refine this.trans ?_
  simp [Function.comp_def]

end Verif.Shell
