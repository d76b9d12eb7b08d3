import Verif.Lemmas.LexerLeft

/-!
# Properties C96-C98: does the lexer answer?
-/

namespace Verif.Lexer
open Verif.Patterns Verif.Cardinality

/-- C96, violation: a token whose first two lines begin with the token itself (`expr: expr PLUS num | expr MINUS num | num`) is compiled, but the matcher
ends on no text at all: no number of steps is enough. (With one such line it ends, but reads too little, C69.) -/
theorem C96_left_recursion_diverges (g : PathEnv) (ts : List GToken) (h : tokensNow ts = .ok g.tokens) (hclosed : GClosed g) (root : GToken)
    (hroot : root ∈ ts) (x y : GElement) (l1 l2 : GLine) (rest : List GLine) (hm : root.must = (.element x :: l1) :: (.element y :: l2) :: rest)
    (sx sy : List GSpec) (hx : x.content = .token root.name sx) (hy : y.content = .token root.name sy) (d : Nat) (p : Path)
    (hp : toPath g d root = .ok p) (canPrefix : Bool) (fuel : Nat) (script : Str) (hs : script ≠ []) (st : St) :
    toAST ⟨p, fun _ => []⟩ canPrefix fuel script st = none := by
  obtain ⟨hg, hl⟩ := TokensOk.of h
  subst hl
  have hfit : GFits g.tokens.list root := by
    intro u hu hname
    have e1 := (hg.find root.name u).mpr ⟨hu, hname⟩
    have e2 := (hg.find root.name root).mpr ⟨hroot, rfl⟩
    rw [e1] at e2
    simpa using e2
  obtain ⟨u1, u2, _⟩ := toPath_unf hg hclosed hp hfit
  obtain ⟨e, hf, he⟩ := u2 root hroot
  have t1 := unf_twice hg hclosed hroot hm hx hy u1
  have t2 := unf_twice hg hclosed hroot hm hx hy he
  have big : toToken ⟨p, fun _ => []⟩ (14 * fuel + 14) script st = none := by
    unfold toToken
    rw [M.bind_some_ok (M.get_run _), M.bind_some_ok (M.set_run _ _)]
    exact twiceLeft_step (fun _ => rfl) hs hf t1 (twiceLeft_stuck (fun _ => rfl) hs hf t2 true fuel) _
  have small : toToken ⟨p, fun _ => []⟩ fuel script st = none := by
    cases hr : toToken ⟨p, fun _ => []⟩ fuel script st with
    | none => rfl
    | some r =>
      have := toToken_mono ⟨p, fun _ => []⟩ fuel (14 * fuel + 14) (by omega) script st r hr
      rw [big] at this
      cases this
  unfold toAST
  exact bind_stuck small

/-- C96: on the empty script one such line, the first one, is enough, if its first element is not optional; whatever the channels. -/
theorem C96_empty_script (g : PathEnv) (ts : List GToken) (h : tokensNow ts = .ok g.tokens) (hclosed : GClosed g) (root : GToken)
    (hroot : root ∈ ts) (x : GElement) (l : GLine) (rest : List GLine) (hm : root.must = (.element x :: l) :: rest)
    (sx : List GSpec) (hx : x.content = .token root.name sx) (hcard : ∀ k, x.card = some k → ¬ Cardinality.SpecAllows k 0) (d : Nat) (p : Path)
    (hp : toPath g d root = .ok p) (channels : Nat → List Path) (canPrefix : Bool) (fuel : Nat) (st : St) :
    toAST ⟨p, channels⟩ canPrefix fuel [] st = none := by
  obtain ⟨hg, hl⟩ := TokensOk.of h
  subst hl
  have hfit : GFits g.tokens.list root := by
    intro u hu hname
    have e1 := (hg.find root.name u).mpr ⟨hu, hname⟩
    have e2 := (hg.find root.name root).mpr ⟨hroot, rfl⟩
    rw [e1] at e2
    simpa using e2
  obtain ⟨u1, u2, _⟩ := toPath_unf hg hclosed hp hfit
  obtain ⟨e, hf, he⟩ := u2 root hroot
  obtain ⟨e1, sp, is, ls, not, r1, r2⟩ := unf_left hg hclosed hroot hm hx u1
  obtain ⟨e1', sp', is', ls', not', r1', r2'⟩ := unf_left hg hclosed hroot hm hx he
  have hk : (x.card.getD .mandatory).isValid 0 = false := by
    cases hc : x.card with
    | none => rfl
    | some k =>
      have := hcard k hc
      rw [Bool.eq_false_iff]
      intro hv
      exact this ((Cardinality.C30_isValid_iff k 0).mp hv)
  unfold toAST
  refine bind_stuck ?_
  unfold toToken
  rw [M.bind_some_ok (M.get_run _), M.bind_some_ok (M.set_run _ _)]
  show elementToToken _ fuel p.element p.deps [] true _ = none
  rw [r1]
  refine diverge_end_card (c := .token e1 sp (x.card.getD .mandatory)) rfl hk ?_ ..
  intro n st
  simp only [buildNextElement, r2]
  exact M.bind_none.mpr (.inl (fetchFirstRule_left r2' r1' hf n st))

/-- `expr: expr PLUS num | expr MINUS num | num` -/
def exExpr : GToken := ⟨lit "expr", [[exGe (.token (lit "expr") []), exGe (exGr "PLUS" "+"), exGe (exGr "NUM" "1")],
  [exGe (.token (lit "expr") []), exGe (exGr "MINUS" "-"), exGe (exGr "NUM" "1")], [exGe (exGr "NUM" "1")]], none, none⟩

/-- All the hypotheses are met: this grammar is compiled, and on no text is there an outcome. -/
example : ∃ p, toPath (exGenv [exExpr]) 3 exExpr = .ok p ∧ ∀ canPrefix fuel script st, script ≠ [] →
    toAST ⟨p, fun _ => []⟩ canPrefix fuel script st = none :=
  ⟨_, rfl, fun canPrefix fuel script st hs => C96_left_recursion_diverges (exGenv [exExpr]) [exExpr] rfl
    ⟨fun _ => rfl, fun _ => rfl⟩ exExpr (by simp) _ _ _ _ _ rfl [] [] rfl rfl 3 _ rfl canPrefix fuel script hs st⟩

/-- The same grammar on the empty text, with channels. -/
example : ∃ p, toPath (exGenv [exExpr]) 3 exExpr = .ok p ∧ ∀ channels canPrefix fuel st, toAST ⟨p, channels⟩ canPrefix fuel [] st = none :=
  ⟨_, rfl, fun channels canPrefix fuel st => C96_empty_script (exGenv [exExpr]) [exExpr] rfl ⟨fun _ => rfl, fun _ => rfl⟩ exExpr (by simp) _ _ _ rfl [] rfl
    (by simp) 3 _ rfl channels canPrefix fuel st⟩

end Verif.Lexer
