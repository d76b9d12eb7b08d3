import Verif.Lemmas.BaseTreeCheck

/-! # C77, C82: from the abstract syntax tree to the program -/

namespace Verif.Base
open Verif.Patterns Verif.Lexer

/-! ## C82 -/

/-- C82: the abstract syntax tree of every program of the grammar, in which equal texts are equally matched, is converted to a root, and the
parser ends with a program for it, without error and panic, whatever the order of the maps. -/
theorem C82_program (cfg : Cfg) (t : AToken) (h : ConfT cfg .program t) (heq : EqualTexts t) :
    ∃ r, toRoot t = .ok (some r) ∧ Conf cfg .program r ∧ (∃ x, AppRun (some (baseEvents cfg)) r x) ∧
      ∀ x, AppRun (some (baseEvents cfg)) r x → ∃ p, x = .ok (.other (.program p)) := by
  obtain ⟨k, r, h1, _, h2, h3⟩ := conf_post t _ h heq t (by rw [post_eq]; simp)
  have : k = .program := name_inj (h1.symm.trans (by cases h with | mk _ h _ _ _ _ _ _ _ => exact h))
  subst this
  exact ⟨r, h2, h3, C79_program cfg r h3⟩

/-- `if ab { break/*end*/}if cd { if ab { break/*end*/}break/*end*/}` -/
example : ∃ r, toRoot exProgramT = .ok (some r) ∧ Conf exCfg .program r ∧ (∃ x, AppRun (some (baseEvents exCfg)) r x) ∧
    ∀ x, AppRun (some (baseEvents exCfg)) r x → ∃ p, x = .ok (.other (.program p)) :=
  C82_program exCfg exProgramT exProgramT_conf exProgramT_equal

/-! ## C77 -/

/-- The root of `append x, x`: the part for the list holds the root of the value. -/
def clashR (a b : Str) : Root :=
  .mk (lit "append " ++ (a ++ b) ++ lit "," ++ (a ++ b)) (lit "listAppend")
    [leafN "APPEND" (lit "append "), partN (lit "listValue") (singleR a b), leafN "COMMA" (lit ","), partN (lit "singleAssignable") (singleR a b)]

theorem clash_root (a b : Str) (ha : a ≠ []) (hb : b ≠ []) : toRoot (appendT a b a b) = .ok (some (clashR a b)) := by
  have h1 : Converts (listT a b) (listR a b) := chain_converts _ (nameT_converts a b ha hb)
  have h2 : Converts (singleT a b) (singleR a b) :=
    chain_converts _ (chain_converts _ (chain_converts _ (chain_converts _ (nameT_converts a b ha hb))))
  have := clash_converts .listAppend "APPEND" "COMMA" (lit "append ") (lit ",") h1 h2 (by rw [listT_discovery, singleT_discovery]) (by decide)
    (by decide) (by simp only [listT, singleT, at_, AToken.name]; decide) (by decide) (by decide)
  rw [listT_discovery, singleT_discovery] at this
  exact this

theorem events_err {cfg : Cfg} {k : Kind} {r : Root} (h : ∀ o, ProgRun (baseEvents cfg) (evOf cfg k r) o → o = .err)
    {y : Out (Option (List V) × V)} (hy : EventsRun (baseEvents cfg) k.name r y) : y = .err := by
  cases hy with
  | none => rfl
  | some hg hl =>
    rw [get_evOf] at hg
    simp only [Option.some.injEq] at hg
    subst hg
    cases hl with
    | fail _ hl => cases hl; rfl
    | panic hp => exact absurd (h _ hp) (by simp)
    | ok hp => exact absurd (h _ hp) (by simp)

/-- The name of the list is found once in the root. -/
theorem clash_names (a b : Str) : ∀ m ∈ (clashR a b).nodes, m ≠ partN (lit "listValue") (singleR a b) → lit "listValue" ∉ nodeNames m := by
  intro m hm hne
  simp only [clashR, Root.nodes, List.mem_cons, List.not_mem_nil, or_false] at hm
  rcases hm with rfl | rfl | rfl | rfl
  · simp only [leafN, nodeNames, containersNames, containerNames]; decide
  · exact absurd rfl hne
  · simp only [leafN, nodeNames, containersNames, containerNames]; decide
  · simp only [partN, singleR, chain, nameR, Root.name, leafN, nodeNames, containersNames, containerNames, rootNames, nodesNames]; decide

theorem clash_list (cfg : Cfg) (a b : Str) (y : Out (Option (List V) × V)) (hy : EventsRun (baseEvents cfg) (lit "listValue") (singleR a b) y) : y = .err := by
  refine events_err (k := .listValue) (fun o ho => ?_) hy
  have h1 : (singleR a b).exists (lit "listAssignable") = false := by
    have e : Kind.operation.name ≠ lit "listAssignable" := by decide
    simp [singleR, chain, Root.exists, Root.nodes, partN, Root.name, Node.name, e]
  have h2 : (singleR a b).exists (lit "variableName") = false := by
    have e : Kind.operation.name ≠ lit "variableName" := by decide
    simp [singleR, chain, Root.exists, Root.nodes, partN, Root.name, Node.name, e]
  rw [evOf, evListValue, opt, if_neg (by simp [h1]), opt, if_neg (by simp [h2])] at ho
  cases ho; rfl

/-- C77 (violation): `append x, x` is a text of the grammar for every variable `x`, and its tree is converted to a root, but every execution
of the parser for this root ends with an error: the part for the list is looked up by its text, and the part for the value has the same. -/
theorem C77_violation (cfg : Cfg) (a b : Str) (ha : a ≠ []) (hb : b ≠ []) :
    ConfT cfg .listAppend (appendT a b a b) ∧ ∃ r, toRoot (appendT a b a b) = .ok (some r) ∧
      ∀ x, ExecuteRun (baseEvents cfg) r x → x = .err := by
  refine ⟨append_confT cfg a b a b ha hb ha hb, clashR a b, clash_root a b ha hb, fun x hx => ?_⟩
  have key : ∀ o, ProgRun (baseEvents cfg) (evOf cfg .listAppend (clashR a b)) o → o = .err := by
    intro o ho
    have ht : ∀ {x}, TriggerRun (baseEvents cfg) (lit "listValue") (clashR a b) x → x = .err := fun hx =>
      trigger_fails (n := partN (lit "listValue") (singleR a b)) (c := .mk (singleR a b).content (lit "listValue") (some (singleR a b)))
        (by simp [clashR, Root.nodes]) rfl (clash_names a b) rfl rfl (clash_list cfg a b) hx
    rw [evOf, evListAppend] at ho
    cases ho with
    | triggerPanic hx => exact absurd (ht hx) (by simp)
    | trigger hx _ ho => rw [ht hx] at ho; cases ho; rfl
  have hn : (clashR a b).name = Kind.listAppend.name := rfl
  cases hx with
  | err => rfl
  | panic hx => rw [hn] at hx; exact absurd (events_err key hx) (by simp)
  | ok hx => rw [hn] at hx; exact absurd (events_err key hx) (by simp)

/-- `append ab, ab` -/
example : ∃ r, toRoot (appendT (lit "a") (lit "b") (lit "a") (lit "b")) = .ok (some r) ∧ ∀ x, ExecuteRun (baseEvents exCfg) r x → x = .err :=
  (C77_violation exCfg _ _ (by decide) (by decide)).2

/-- In `append ab, cd` equal texts are equally matched, in `append ab, ab` they are not. -/
example : EqualTexts (appendT (lit "a") (lit "b") (lit "c") (lit "d")) := equalTextsB_sound _ (by decide +kernel)
example : equalTextsB (appendT (lit "a") (lit "b") (lit "a") (lit "b")) = false := by decide +kernel

end Verif.Base
