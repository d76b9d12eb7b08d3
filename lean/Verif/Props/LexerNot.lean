import Verif.Lemmas.LexerReadNot
import Verif.Props.LexerRead

/-!
# Tokens with `not` lines
-/

namespace Verif.Lexer
open Verif.Patterns Verif.Cardinality

/-- C112: what the `not` lines of the root mean, for lines as in C109 (`Reads` of an element without `not` lines says what lines read):
if the `not` lines read something, the token is not valid; if they read nothing and the lines read a text, the token is valid and has that text;
and a valid token has the text which the lines read, or else the lines read nothing and it has no text. -/
theorem C112_not (env : Env) (chs : List Path) (hch : ∀ k, env.channels k = chs) (hchs : ∀ p ∈ chs, Readable false p.element)
    (name : Str) (must not : List Line) (hroot : env.root.element = .mk name must not) (hne : not ≠ [])
    (hm : Readable true (.mk name must [])) (hn : Readable true (.mk name not []))
    (fuel : Nat) (script : Str) (hlen : script.length < 2 ^ 63) (st st' : St) (t : Token) (h : toToken env fuel script st = some (.ok t, st')) :
    (∀ v, (Element.mk name not []).Reads (GapReads chs) true script (some v) → t.isValid = false) ∧
    (∀ w, (Element.mk name not []).Reads (GapReads chs) true script none → (Element.mk name must []).Reads (GapReads chs) true script (some w) →
      t.isValid = true ∧ t.discoveries = w) ∧
    (t.isValid = true → (Element.mk name not []).Reads (GapReads chs) true script none ∧
      ((Element.mk name must []).Reads (GapReads chs) true script (some t.discoveries) ∨
        (Element.mk name must []).Reads (GapReads chs) true script none ∧ t.discoveries = [])) := by
  unfold toToken at h
  rw [M.bind_some_ok (M.get_run _), M.bind_some_ok (M.set_run _ _), hroot] at h
  obtain ⟨rm, rn, s1, k, h1, h2, h3, h4, rfl⟩ := not_runs hch hchs hne hm hn hlen h
  have hdet := fun ls => Element.reads_det (gapReads_front chs) (gapReads_det chs) (.mk name ls []) true script
  cases rm with
  | none =>
    refine ⟨fun _ _ => by simp [Token.isValid], fun w _ hw => ?_, fun hv => by simp [Token.isValid] at hv⟩
    have := hdet must _ _ hw h3
    simp [lineOut] at this
  | some m =>
    have h4 := h4 (by simp)
    refine ⟨fun v hv => ?_, fun w hnone hw => ?_, fun hv => ?_⟩
    · have := hdet not _ _ hv h4
      cases rn with
      | none => simp [lineOut] at this
      | some r =>
        simp only [lineOut] at this
        split at this
        · rename_i hr
          simp [Token.isValid, TokenContent.isValid, hr]
        · simp at this
    · have a1 := hdet must _ _ hw h3
      have a2 := hdet not _ _ hnone h4
      simp only [lineOut] at a1
      split at a1
      · rename_i hmv
        simp at a1
        subst a1
        cases rn with
        | none => simp [Token.isValid, TokenContent.isValid, hmv, Token.discoveries, TokenContent.discoveries]
        | some r =>
          simp only [lineOut] at a2
          split at a2
          · simp at a2
          · rename_i hr
            have hr : r.isValid = false := by simpa using hr
            simp [Token.isValid, TokenContent.isValid, hr, Token.discoveries, TokenContent.discoveries]
      · simp at a1
    · cases rn with
      | none =>
        have hmv : m.isValid = true := by simpa [Token.isValid, TokenContent.isValid] using hv
        refine ⟨h4, .inl ?_⟩
        simpa [lineOut, hmv, Token.discoveries, TokenContent.discoveries] using h3
      | some r =>
        have hr : r.isValid = false := by simpa [Token.isValid, TokenContent.isValid] using hv
        simp only [lineOut, hr, Bool.false_eq_true, if_false] at h4
        refine ⟨h4, ?_⟩
        by_cases hmv : m.isValid = true
        · left
          simpa [lineOut, hmv, Token.discoveries, TokenContent.discoveries, hr] using h3
        · right
          have hmv : m.isValid = false := by simpa using hmv
          refine ⟨by simpa [lineOut, hmv] using h3, ?_⟩
          cases m with
          | mk i l =>
            have : blocksValid l = false := by simpa [LineMatch.isValid] using hmv
            simp [Token.discoveries, TokenContent.discoveries, hr, LineMatch.discoveries, this]

/-- C112 (violation): a root `a₁ | a₂ | … not b₁ | b₂ | …` of rules, without channels, is valid on every text at whose beginning no `b` stands, also if
no `a` stands there either. -/
theorem C112_vacuous_violation (env : Env) (hch : ∀ k, env.channels k = []) (name : Str) (as bs : List Rule) (ha : as ≠ []) (hb : bs ≠ [])
    (hwa : ∀ r ∈ as, RuleWF r) (hwb : ∀ r ∈ bs, RuleWF r)
    (hroot : env.root.element = .mk name (as.map fun r => [.container (.rule r .mandatory)]) (bs.map fun r => [.container (.rule r .mandatory)]))
    (fuel : Nat) (script : Str) (hs : script ≠ []) (hlen : script.length < 2 ^ 63) (st st' : St) (t : Token)
    (h : toToken env fuel script st = some (.ok t, st')) :
    t.isValid = true ↔ ∀ r ∈ bs, RuleReads r script none := by
  have hread : ∀ rs : List Rule, (∀ r ∈ rs, RuleWF r) → Readable true (.mk name (rs.map fun r => [.container (.rule r .mandatory)]) []) := by
    intro rs hrs
    refine .mk (by simp) ?_
    simp only [List.mem_map, forall_exists_index, and_imp, forall_apply_eq_imp_iff₂, List.mem_singleton, Instruction.container.injEq, forall_eq]
    exact fun r hr => .rule (hrs r hr)
  unfold toToken at h
  rw [M.bind_some_ok (M.get_run _), M.bind_some_ok (M.set_run _ _), hroot] at h
  obtain ⟨rm, rn, s1, k, h1, h2, _, h4, rfl⟩ := not_runs (chs := []) hch (by simp) (by simpa using hb) (hread as hwa) (hread bs hwb) hlen h
  have hrm := mandatory_best hch ha hwa hs hlen h1
  have hrn := mandatory_best hch hb hwb hs hlen (h2 hrm)
  have hbs := h4 hrm
  clear h2 h4
  obtain ⟨m, rfl⟩ := Option.ne_none_iff_exists'.mp hrm
  obtain ⟨r, rfl⟩ := Option.ne_none_iff_exists'.mp hrn
  have hv : Token.isValid (.mk name (Option.map (fun m => TokenContent.mk m (some r)) (some m))) = !r.isValid := by
    simp [Token.isValid, TokenContent.isValid]
  rw [hv, alternatives_none bs script hs hbs]
  simp [lineOut]

/-- `root: A | C --- B | X;` -/
def exNot : Env := ⟨⟨.mk (lit "root") ([exC "A" "a", exC "C" "c"].map fun r => [.container (.rule r .mandatory)])
  ([exC "B" "ab", exC "X" "x"].map fun r => [.container (.rule r .mandatory)]), []⟩, fun _ => []⟩

/-- The hypotheses of C112 are met, and the root is valid on a text it reads, not valid on a text which the `not` lines read, and valid on a text which
neither reads. -/
example : (∀ r ∈ [exC "A" "a", exC "C" "c"], RuleWF r) ∧ (∀ r ∈ [exC "B" "ab", exC "X" "x"], RuleWF r) ∧
    (∃ t st', toToken exNot 30 (lit "aab") exSt = some (.ok t, st') ∧ t.isValid = true ∧ t.discoveries = lit "a") ∧
    (∃ t st', toToken exNot 30 (lit "aba") exSt = some (.ok t, st') ∧ t.isValid = false) ∧
    (∃ t st', toToken exNot 30 (lit "zzz") exSt = some (.ok t, st') ∧ t.isValid = true ∧ t.discoveries = []) ∧
    ∀ r ∈ [exC "B" "ab", exC "X" "x"], RuleReads r (lit "zzz") none := by
  refine ⟨by simp [RuleWF, exC], by simp [RuleWF, exC], ?_, of_shows (by decide +kernel), ?_, ?_⟩
  · obtain ⟨t, st', h1, h2⟩ := of_shows (f := fun t : Token => (t.isValid, t.discoveries)) (v := (true, lit "a"))
      (x := toToken exNot 30 (lit "aab") exSt) (by decide +kernel)
    simp at h2
    exact ⟨t, st', h1, h2.1, h2.2⟩
  · obtain ⟨t, st', h1, h2⟩ := of_shows (f := fun t : Token => (t.isValid, t.discoveries)) (v := (true, []))
      (x := toToken exNot 30 (lit "zzz") exSt) (by decide +kernel)
    simp at h2
    exact ⟨t, st', h1, h2.1, h2.2⟩
  · simp only [List.mem_cons, List.not_mem_nil, or_false, forall_eq_or_imp, forall_eq, RuleReads, exC]
    refine ⟨.inr ⟨?_, trivial⟩, .inr ⟨?_, trivial⟩⟩ <;> decide

end Verif.Lexer
