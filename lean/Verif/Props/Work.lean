import Verif.Lemmas.BaseWork4

/-!
# Property C131: the shipped lexer may need exponential time
-/

namespace Verif.Base
open Verif.Patterns Verif.Lexer Verif.Cardinality

/-- C131: the work of the shipped lexer is not polynomial. The count of the work does not change what `AST` does, and on every program which begins with `log(` and
`2n` opening brackets, whatever follows, in every setting and for every order of the channels, `AST` answers, but only after it has gone through the channels at
least `2 ^ n` times. -/
theorem C131_exponential {ps : PatternSet} {rs : RuleSet} {ts cs : TokenSet} (hps : Text.toPatterns patternsAlex = .ok ps) (hrs : Text.toRules rulesAlex ps = .ok rs)
    (hts : Text.toTokens rs tokensAlex = .ok ts) (hcs : Text.toTokens rs channelsAlex = .ok cs) :
    (∀ (x : Setting) order fuel root script, x.ast order fuel root script = (counted ts cs x.depth order fuel root script).map Prod.fst) ∧
    ∀ n, 0 < n → ∀ rest, ∃ F a, ∀ (x : Setting) (order : List Path → Nat → List Path), AnyOrder order → ∀ fuel, F ≤ fuel →
      ∃ work, counted ts cs x.depth order fuel (lit "program") (lit "log(" ++ brackets (2 * n) ++ rest) = some (.ok a, work) ∧ 2 ^ n ≤ work := by
  have hs : Shipped ps rs ts cs := ⟨hps, hrs, hts, hcs⟩
  have hcount : ∀ (x : Setting) order fuel root script, x.ast order fuel root script = (counted ts cs x.depth order fuel root script).map Prod.fst := by
    intro x order fuel root script
    rw [x.ast_eq hs]
    unfold baseMatcher counted
    cases ts.find root with
    | err => rfl
    | panic => rfl
    | ok t =>
      dsimp only
      cases matcherNow { tokens := ts } x.depth t (some cs) with
      | err => rfl
      | panic => rfl
      | ok y => simp [Option.map_map]; rfl
  refine ⟨hcount, ?_⟩
  intro n hn rest
  obtain ⟨m, rfl⟩ : ∃ m, n = m + 1 := ⟨n - 1, by omega⟩
  obtain ⟨F, a, hF⟩ := C99_base_total .program (lit "log(" ++ brackets (2 * (m + 1)) ++ rest)
  refine ⟨F, a, fun x order ho fuel hf => ?_⟩
  have hx := hF x order ho fuel hf
  rw [hcount] at hx
  have hb := shipped_read hs
  obtain ⟨t, hfind, ht, hk⟩ := hb.find_kind .program
  have hname : Kind.program.name = lit "program" := by decide +kernel
  rw [hname] at hx hfind
  unfold counted at hx ⊢
  rw [hfind] at hx ⊢
  dsimp only at hx ⊢
  cases hm : matcherNow { tokens := ts } x.depth t (some cs) with
  | err => rw [hm] at hx; simp at hx
  | panic => rw [hm] at hx; simp at hx
  | ok y =>
    obtain ⟨p, chans⟩ := y
    rw [hm] at hx
    dsimp only at hx ⊢
    cases hr : toAST ⟨p, order chans⟩ false fuel (lit "log(" ++ brackets (2 * (m + 1)) ++ rest) ⟨false, fun _ => none, 0⟩ with
    | none => rw [hr] at hx; simp at hx
    | some z =>
      obtain ⟨z, st'⟩ := z
      rw [hr] at hx
      simp at hx
      subst hx
      have hscript : lit "log(" ++ brackets (2 * (m + 1)) ++ rest = lit "log([" ++ (brackets (2 * m + 1) ++ rest) := by
        have h1 : lit "log([" = lit "log(" ++ [91] := by decide +kernel
        rw [h1, show 2 * (m + 1) = (2 * m + 1) + 1 by omega]
        simp [brackets, List.replicate_succ]
      rw [hscript] at hr
      have := hb.program_work ht hk hm (ho chans) (m := m) (j := 2 * m + 1) le_rfl hr
      refine ⟨st'.ranges, by simp, ?_⟩
      rw [Nat.pow_succ]
      omega

/-- The texts are read, and there are such settings and orders: 40 brackets need more than a million rounds. -/
example : ∃ ps rs ts cs, Text.toPatterns patternsAlex = .ok ps ∧ Text.toRules rulesAlex ps = .ok rs ∧ Text.toTokens rs tokensAlex = .ok ts ∧
    Text.toTokens rs channelsAlex = .ok cs ∧ ∃ F a, ∀ fuel, F ≤ fuel →
      ∃ work, counted ts cs 64 (fun l k => if k % 2 = 0 then l else l.reverse) fuel (lit "program") (lit "log(" ++ brackets 40 ++ lit "]") = some (.ok a, work) ∧
        1000000 ≤ work := by
  obtain ⟨ps, rs, ts, cs, hs, _⟩ := shipped
  refine ⟨ps, rs, ts, cs, hs.1, hs.2, hs.3, hs.4, ?_⟩
  obtain ⟨F, a, h⟩ := (C131_exponential hs.1 hs.2 hs.3 hs.4).2 20 (by omega) (lit "]")
  refine ⟨F, a, fun fuel hf => ?_⟩
  obtain ⟨w, h1, h2⟩ := h ⟨fun _ _ => .err, fun _ _ => .err, ⟨[], []⟩, 64, le_refl _⟩ (fun l k => if k % 2 = 0 then l else l.reverse) (by
    intro l k
    dsimp only
    split
    · exact List.Perm.refl _
    · exact List.reverse_perm l) fuel hf
  exact ⟨w, h1, by omega⟩

end Verif.Base
