import Verif.Lemmas.Derivation3
import Verif.Props.Ast
import Verif.Props.Grammar

/-!
# C92: syntax trees are derivation trees of the grammar
-/

namespace Verif.Lexer
open Verif.Patterns Verif.Cardinality

/-- The compiled matcher in terms of the grammar. -/
theorem matcher_unf {g : PathEnv} (hg : TokensOk g) (hclosed : GClosed g) {root : GToken} (hroot : GFits g.tokens.list root)
    {channels : Option TokenSet} (hch : ∀ c ∈ chanList channels, GFits g.tokens.list c) {d : Nat} {p : Path} {ps : List Path}
    (hm : matcherNow g d root channels = .ok (p, ps)) :
    Unf g [] root p.element ∧ Resolves g p.deps ∧ (∀ ch ∈ ps, ∃ t ∈ chanList channels, Unf g [] t ch.element ∧ Resolves g ch.deps) ∧
      ∀ t ∈ chanList channels, ∃ e, Unf g [] t e := by
  simp only [matcherNow, Out.bind_eq_ok] at hm
  obtain ⟨p', h1, h2⟩ := hm
  obtain ⟨a1, a2, _⟩ := toPath_unf hg hclosed h1 hroot
  cases channels with
  | none =>
    simp at h2
    obtain ⟨rfl, rfl⟩ := h2
    exact ⟨a1, a2, by simp, by simp [chanList]⟩
  | some cs =>
    simp only [Out.bind_eq_ok] at h2
    obtain ⟨ps', h2, h3⟩ := h2
    simp at h3
    obtain ⟨rfl, rfl⟩ := h3
    refine ⟨a1, a2, ?_, ?_⟩
    · intro ch hc
      obtain ⟨t, ht, htp⟩ := (forall2_mem (channelPaths_each h2)).2 ch hc
      obtain ⟨b1, b2, _⟩ := toPath_unf hg hclosed htp (hch t ht)
      exact ⟨t, ht, b1, b2⟩
    · intro t ht
      obtain ⟨ch, _, htp⟩ := (forall2_mem (channelPaths_each h2)).1 t ht
      obtain ⟨b1, _, _⟩ := toPath_unf hg hclosed htp (hch t ht)
      exact ⟨_, b1⟩

/-- A grammar without `not` lines and with well-formed rules, whose channels do not clash with its tokens. -/
structure OrdinaryGrammar (ts chans : List GToken) : Prop where
  noNot : ∀ t ∈ ts ++ chans, t.not = none
  rules : ∀ t ∈ ts ++ chans, RulesOk t
  fits : ∀ c ∈ chans, GFits ts c

section
variable (g : PathEnv) (ts : List GToken) (h : tokensNow ts = .ok g.tokens) (hclosed : GClosed g) (root : GToken) (hroot : root ∈ ts)
  (channels : Option TokenSet) (hgood : OrdinaryGrammar ts (chanList channels)) (d : Nat) (p : Path) (ps : List Path)
  (hm : matcherNow g d root channels = .ok (p, ps)) (order : Nat → List Path) (hperm : ∀ k, (order k).Perm ps)
  (fuel : Nat) (script : Str) (hlen : script.length < 2 ^ 63) (st st' : St) (hst : st.canPrefix = false) (a : AToken)
  (hrun : toAST ⟨p, order⟩ false fuel script st = some (.ok (.success a), st'))
include h hclosed hroot hgood hm hperm hlen hst hrun

/-- C92: every success of `ToAST` is a derivation tree of the grammar for a beginning of the script, in which a line is given up only
where the text is at its end and the next element is optional, or in front of a token from which the own token can be reached again. -/
theorem C92_derivation : ∃ count, Tree ts (chanList channels) (GivesUp ts) root script a count ∧ a.discovery <+: script := by
  obtain ⟨hg, hl⟩ := TokensOk.of h
  subst hl
  have hfit : GFits g.tokens.list root := by
    intro u hu hname
    have e1 := (hg.find root.name u).mpr ⟨hu, hname⟩
    have e2 := (hg.find root.name root).mpr ⟨hroot, rfl⟩
    rw [e1] at e2
    simpa using e2
  have hshape := matcher_shape h hclosed (fun u hu => hgood.noNot u (by simp [hu])) hroot
    (fun c hc => ⟨hgood.noNot c (by simp [hc]), hgood.fits c hc⟩) hm order hperm
  have hch : ∀ k, ∀ q ∈ order k, q ∈ ps := fun k q hq => (hperm k).mem_iff.mp hq
  obtain ⟨tok, h1, h2, h3, h4, h5⟩ := C44_ast ⟨p, order⟩ hshape ps hch fuel script st st' hst _ hrun
  obtain ⟨tok', o, k1, k2, k3⟩ := toAST_ok hrun
  rw [h1] at k1
  obtain rfl : tok = tok' := by simpa using k1
  have hto : tok.toA = .ok a := by
    rcases k3 with ⟨m, _, k3⟩ | ⟨_, a', k3, k4⟩
    · cases k3
    · cases k4; exact k3
  have hV := ((tameInv ⟨p, order⟩ False True (fun _ => True) hshape (by simp) (by simp)).toToken hshape.root hshape.deps fuel script _ _ _ hst h1).2
    tok rfl
  obtain ⟨hc, _⟩ := C39_prefix ⟨p, order⟩ ps hch fuel script st st' tok h1
  obtain ⟨u1, u2, u3, _⟩ := matcher_unf hg hclosed hfit hgood.fits hm
  refine ⟨_, token_tree hg hclosed (chans := ps) (cs := chanList channels) ?_ (fun t ht => hgood.rules t (by simp [ht])) tok hc hV.2.1 h2 hto (by omega) u2
    (stack := []) (by simp [Leads]) u1 (hgood.rules root (by simp [hroot])), h5⟩
  intro ch hc
  obtain ⟨t, t1, t2, t3⟩ := u3 ch hc
  exact ⟨t, t1, t2, t3, hgood.rules t (by simp [t1])⟩

/-- C92: if something of the script is left over, only recursion is a reason to give up a line. -/
theorem C92_proper_prefix (hne : a.discovery ≠ script) : ∃ count, Tree ts (chanList channels) (GivesUpRecursion ts) root script a count := by
  obtain ⟨count, h1, r, h2⟩ := C92_derivation g ts h hclosed root hroot channels hgood d p ps hm order hperm fuel script hlen st st' hst a hrun
  refine ⟨count, tree_proper h1 h2.symm ?_⟩
  rintro rfl
  exact hne (by simpa using h2)

/-- C92: without recursion, and with optional parts only at the ends of the lines, no line is given up. -/
theorem C92_complete (hsimple : GSimple ts root) (hcs : ∀ c ∈ chanList channels, GSimple ts c) :
    ∃ count, Tree ts (chanList channels) NeverGivesUp root script a count := by
  obtain ⟨count, h1, _⟩ := C92_derivation g ts h hclosed root hroot channels hgood d p ps hm order hperm fuel script hlen st st' hst a hrun
  exact ⟨count, tree_simple hcs h1 hsimple⟩
end

/-- C92: the text of a derivation tree in which no line is given up is a word of the token. -/
theorem C92_word (g : PathEnv) (ts : List GToken) (h : tokensNow ts = .ok g.tokens) (hclosed : GClosed g) (root : GToken) (hroot : root ∈ ts)
    (channels : Option TokenSet) (hfits : ∀ c ∈ chanList channels, GFits ts c) (d : Nat) (r : Path × List Path) (hm : matcherNow g d root channels = .ok r)
    (script : Str) (a : AToken) (count : Str → Nat) (ht : Tree ts (chanList channels) NeverGivesUp root script a count) :
    GWord ts (chanList channels) (.tok root) a.discovery := by
  obtain ⟨hg, hl⟩ := TokensOk.of h
  subst hl
  have hfit : GFits g.tokens.list root := by
    intro u hu hname
    have e1 := (hg.find root.name u).mpr ⟨hu, hname⟩
    have e2 := (hg.find root.name root).mpr ⟨hroot, rfl⟩
    rw [e1] at e2
    simpa using e2
  obtain ⟨_, u2, _, u4⟩ := matcher_unf hg hclosed hfit hfits (p := r.1) (ps := r.2) hm
  have one : ∀ t e, Unf g [] t e → ∀ l ∈ t.must, LineDeclared g.tokens.list l := by
    intro t e hu l hl x hx name specs hc
    rcases (unf_good hg hu (by simp)).2 l (by simp [GToken.lines, hl]) x hx name specs hc with ⟨r, h⟩ | h | ⟨p, h⟩
    · rw [hclosed.1] at h; cases h
    · exact h
    · rw [hclosed.2] at h; cases h
  have hts : ∀ t ∈ g.tokens.list, ∀ l ∈ t.must, LineDeclared g.tokens.list l := by
    intro t ht
    obtain ⟨e, _, he⟩ := u2 t ht
    exact one t e he
  refine tree_word hts ?_ ht (hts root hroot)
  intro t ht
  obtain ⟨e, he⟩ := u4 t ht
  exact one t e he

/-- The hypotheses are met by `S := D D*`, `D := a | b` with the channel `W := _`, on the script `a_b!`. -/
theorem exG_ordinary (cs : TokenSet) (h : tokensNow [exGW] = .ok cs) : OrdinaryGrammar [exGS, exGD] (chanList (some cs)) := by
  have hcs : cs.list = [exGW] := by
    cases h
    rfl
  refine ⟨?_, ?_, ?_⟩
  · intro t ht
    simp [chanList, hcs] at ht
    rcases ht with rfl | rfl | rfl <;> rfl
  · intro t ht
    simp [chanList, hcs] at ht
    rcases ht with rfl | rfl | rfl <;> intro l hl e he r hr
    · simp [exGS, exGe] at hl; subst hl; simp at he; rcases he with rfl | rfl <;> simp at hr
    · simp [exGD] at hl; rcases hl with rfl | rfl <;> simp [exGe] at he <;> subst he <;> simp [exGr] at hr <;>
        subst hr <;> simp [RuleWF, exC]
    · simp [exGW] at hl; subst hl; simp [exGe] at he; subst he; simp [exGr] at hr
      subst hr; simp [RuleWF, exC]
  · intro c hc u hu hn
    simp [chanList, hcs] at hc
    subst hc
    simp at hu
    rcases hu with rfl | rfl <;> exact absurd hn (by decide)

example : ∃ cs a st', tokensNow [exGW] = .ok cs ∧ matcherNow (exGenv [exGS, exGD]) 3 exGS (some cs) = .ok exGps ∧
    OrdinaryGrammar [exGS, exGD] (chanList (some cs)) ∧
    toAST ⟨exGps.1, fun _ => exGps.2⟩ false 30 (lit "a_b!") exSt = some (.ok (.success a), st') ∧ a.discovery = lit "a_b" := by
  obtain ⟨x, st', h1, h2⟩ := of_shows (f := fun x : AST => match x with | .success a => some a.discovery | .mistake _ => none) (v := some (lit "a_b"))
    (x := toAST ⟨exGps.1, fun _ => exGps.2⟩ false 30 (lit "a_b!") exSt) (by decide +kernel)
  cases x with
  | mistake m => simp at h2
  | success a =>
    simp at h2
    exact ⟨_, a, st', rfl, rfl, exG_ordinary _ rfl, h1, h2⟩

end Verif.Lexer
