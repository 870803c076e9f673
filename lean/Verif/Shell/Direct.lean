import Verif.Shell.Props

/-!
# C78: scripts started without an alias

`execute_python_script_via_bash` with the pre-command of `get_bash_precommand(cuda_visible_devices)` or with none.
-/

namespace Verif.Shell
open Verif Verif.Cli

theorem outer_direct {rest : Str} (hr : Kept rest) : system ("bash -c \"".toList ++ rest ++ "\"".toList) = programs rest := by
  refine system_bash (more := []) ?_
  have h1 : run ⟨.plain, none, []⟩ "bash -c \"".toList = some ⟨.dq, some [], [.word "bash".toList, .word "-c".toList]⟩ := by decide +kernel
  have h : run ⟨.plain, none, []⟩ ("bash -c \"".toList ++ rest ++ "\"".toList) = some ⟨.plain, some rest, [.word "bash".toList, .word "-c".toList]⟩ := by
    rw [List.append_assoc, run_append_of h1, run_append_of (hr _ _)]
    rfl
  rw [tokens_of h rfl]
  rfl

theorem programs_direct {s : Str} {cuda : Option Int} {ws : List Str} {log : Option Str} (ht : tokens s = some ((device cuda ++ "python".toList :: ws).map Tok.word ++ redirection log)) :
    programs s = some [⟨device cuda, "python".toList :: ws, logged log⟩] := by
  have hn : Tok.op "&&".toList ∉ (device cuda ++ "python".toList :: ws).map Tok.word ++ redirection log := by
    rw [List.mem_append, not_or]
    exact ⟨not_and_map _, not_and_redirection log⟩
  have hc : command ((device cuda ++ "python".toList :: ws).map Tok.word ++ redirection log) = some ⟨device cuda, "python".toList :: ws, logged log⟩ := by
    unfold command
    rw [words_map _ _ (by cases log <;> rfl)]
    simp only [output_redirection, assignment_device, Option.bind_eq_bind, Option.bind_some]
  unfold programs commands
  rw [ht]
  simp only [Option.bind_eq_bind, Option.bind_some, splitAnd_none hn, List.mapM_cons, List.mapM_nil, hc]
  rfl

theorem run_prefix (cuda : Option Int) : run ⟨.plain, none, []⟩ (cuda.elim [] (fun d => "CUDA_VISIBLE_DEVICES=".toList ++ decimalInt d) ++ " ".toList) = some ⟨.plain, none, (device cuda).map .word⟩ := by
  cases cuda with
  | none => rfl
  | some d =>
    show run _ ("CUDA_VISIBLE_DEVICES=".toList ++ decimalInt d ++ " ".toList) = _
    rw [List.append_assoc, run_append_of (reads_plain (by decide) (by decide) none _), run_append_of (run_word (decimalInt_plain d) _ _), device_some]
    exact run_space _ _

theorem direct (script : Str) (args : List Str) (cuda : Option Int) (log : Option Str) (head : Str) (hh : Kept head) (hrun : run ⟨.plain, none, []⟩ head = some ⟨.plain, none, (device cuda).map .word⟩)
    (hs : script ≠ [] ∧ Plain script) (ha : ∀ a ∈ args, a ≠ [] ∧ Plain a) (hl : ∀ l ∈ log, l ≠ [] ∧ Plain l) :
    system ("bash -c \"".toList ++ (head ++ stringArgument ("python".toList :: script :: args) ++ log.elim [] (fun l => " > >(tee ".toList ++ l ++ ") 2>&1".toList)) ++ "\"".toList) =
      some [⟨device cuda, "python".toList :: script :: args, logged log⟩] := by
  have hk : Kept (stringArgument ("python".toList :: script :: args)) := kept_arguments (by
    rw [List.forall_mem_cons, List.forall_mem_cons]
    exact ⟨kept_plain (by decide), kept_plain hs.2, fun a h => kept_plain (ha a h).2⟩)
  have hlog : Kept (log.elim [] (fun l => " > >(tee ".toList ++ l ++ ") 2>&1".toList)) := by
    cases log with
    | none => exact kept_nil
    | some l => exact kept_append (kept_append (kept_of (by decide)) (kept_plain (hl l rfl).2)) (kept_of (by decide))
  rw [outer_direct (kept_append (kept_append hh hk) hlog)]
  refine programs_direct ?_
  have hw : ∀ T, run ⟨.plain, none, T⟩ (stringArgument ("python".toList :: script :: args)) = some ⟨.plain, none, T ++ ("python".toList :: script :: args).map .word⟩ := by
    intro T
    have := run_arguments ((("python".toList, "python".toList) :: (script, script) :: args.map fun a => (a, a)))
      (List.forall_mem_cons.2 ⟨reads_plain (by decide) (by decide), List.forall_mem_cons.2 ⟨reads_plain hs.1 hs.2, by
        rw [List.forall_mem_map]
        exact fun a h => reads_plain (ha a h).1 (ha a h).2⟩⟩) T
    simpa [Function.comp_def] using this
  obtain ⟨r, e1, e2, e3⟩ := run_redirection ((device cuda).map .word ++ ("python".toList :: script :: args).map .word) hl
  have hh' : run ⟨.plain, none, []⟩ (head ++ stringArgument ("python".toList :: script :: args) ++ log.elim [] (fun l => " > >(tee ".toList ++ l ++ ") 2>&1".toList)) = some r := by
    rw [List.append_assoc, run_append_of hrun, run_append_of (hw _)]
    exact e1
  rw [tokens_of hh' e2, e3]
  simp

/-- **C78.** Without an interpreter of its own: the script is started with the given arguments, on the given device (if there is one), and with the given log file (if there is one). -/
theorem C78_direct (script : Str) (args : List Str) (cuda : Option Int) (log : Option Str) (hs : script ≠ [] ∧ Plain script) (ha : ∀ a ∈ args, a ≠ [] ∧ Plain a) (hl : ∀ l ∈ log, l ≠ [] ∧ Plain l) :
    system (bashCommand script args (some (bashPrecommand cuda none)) log) = some [⟨device cuda, "python".toList :: script :: args, logged log⟩] ∧
    system (bashCommand script args none log) = some [⟨[], "python".toList :: script :: args, logged log⟩] := by
  constructor
  · rw [← direct script args cuda log _ (kept_append ?_ (kept_of (by decide))) (run_prefix cuda) hs ha hl]
    · congr 1
      unfold bashCommand bashPrecommand
      cases cuda <;> cases log <;> simp
    · cases cuda with
      | none => exact kept_nil
      | some d => exact kept_append (kept_of (by decide)) (kept_plain (decimalInt_plain d))
  · rw [show ([] : List Str) = device none from rfl, ← direct script args none log [] kept_nil rfl hs ha hl]
    congr 1
    unfold bashCommand
    cases log <;> simp

example : system (bashCommand "spiral.py".toList ["--seed".toList, "4".toList] (some (bashPrecommand (some 1) none)) none) =
    some [⟨["CUDA_VISIBLE_DEVICES=1".toList], ["python".toList, "spiral.py".toList, "--seed".toList, "4".toList], .inherited⟩] :=
  (C78_direct _ _ _ _ (by decide) (by decide) (by simp)).1

end Verif.Shell
