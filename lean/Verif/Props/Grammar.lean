import Verif.Lemmas.GrammarPlain
import Verif.Props.Lexer

/-!
# C66, C67: grammars are compiled to what they mean

`toPath g d t` is `ToPath` of the adapter of paths of the grammar `g`, `matcherNow` the builder of the token adapter; `d` is
the depth of the stack that is available.
-/

namespace Verif.Lexer
open Verif.Patterns Verif.Cardinality

/-! ## C66: which grammars are compiled -/

/-- C66: `ToPath` succeeds exactly if all the tokens of the grammar are complete (they have names, lines, instructions),
mention only known tokens, and have no line with the token itself as its only element; and the token asked for is complete and
mentions only known tokens. -/
theorem C66_compiles_iff (g : PathEnv) (ts : List GToken) (h : tokensNow ts = .ok g.tokens) (root : GToken) (d : Nat)
    (hd : ts.length < d) :
    (∃ p, toPath g d root = .ok p) ↔
      (∀ u ∈ ts, GComplete u ∧ GDeclared g u ∧ GProgress g u) ∧ GComplete root ∧ GDeclared g root := by
  obtain ⟨hg, hl⟩ := TokensOk.of h
  subst hl
  have hf : freeNames g [] < d := by
    refine lt_of_le_of_lt ?_ hd
    unfold freeNames
    exact le_trans (List.length_filter_le _ _) (by simp)
  constructor
  · rintro ⟨p, hp⟩
    simp only [toPath, Out.bind_eq_ok] at hp
    obtain ⟨deps, h1, ⟨e, ext⟩, h2, h3⟩ := hp
    refine ⟨?_, unf_good hg (toElement_unf d h2) (by simp)⟩
    intro u hu
    obtain ⟨⟨e', ext'⟩, h'⟩ := buildDependencies_each h1 u hu
    obtain ⟨a, b⟩ := unf_good hg (toElement_unf d h') (by simp)
    exact ⟨a, b, unf_progress hg hu (toElement_unf d h')⟩
  · rintro ⟨h1, h2, h3⟩
    have hall : ∀ u, GComplete u → GDeclared g u → ∃ r, toElement g d [] u = .ok r := fun u a b =>
      toElement_ok hg h1 d [] u hf (by simp) a b (by simp)
    obtain ⟨l, hl⟩ := buildDependencies_ok (ts := g.tokens.list) (fun t ht => hall t (h1 t ht).1 (h1 t ht).2.1)
    obtain ⟨⟨e, ext⟩, he⟩ := hall root h2 h3
    exact ⟨_, by simp [toPath, hl, he]; rfl⟩

/-- C66: the compiler ends on every grammar, mutual recursion included: more stack than the number of the tokens is never
used, and the result does not depend on it. -/
theorem C66_ends (g : PathEnv) (ts : List GToken) (h : tokensNow ts = .ok g.tokens) (root : GToken) (d : Nat)
    (hd : ts.length < d) : toPath g d root ≠ .panic ∧ ∀ d', d ≤ d' → toPath g d' root = toPath g d root := by
  obtain ⟨hg, hl⟩ := TokensOk.of h
  subst hl
  have := toPath_noPanic hg hd root
  exact ⟨this, fun d' hd' => toPath_refines g hd' root this⟩

/-- C66: an adapter gives the same result for a token whatever it was asked before, although it keeps the dependencies of the
first call. -/
theorem C66_history (g : PathEnv) (d : Nat) (hist : List GToken) (t : GToken) :
    (toPathSt g d t (toPathCalls g d hist none).2).1 = toPath g d t ∧
    (toPathCalls g d hist none).1 = hist.map (toPath g d) := by
  have key : ∀ (t : GToken) (c : Option (List Element)), (∀ l, c = some l → buildDependencies g d g.tokens.list = .ok l) →
      (toPathSt g d t c).1 = toPath g d t ∧
      (∀ l, (toPathSt g d t c).2 = some l → buildDependencies g d g.tokens.list = .ok l) := by
    intro t c hc
    cases c with
    | some l =>
      have := hc l rfl
      simp [toPathSt, toPath, this]
    | none =>
      unfold toPathSt toPath
      cases hb : buildDependencies g d g.tokens.list <;> simp
  have calls : ∀ (hist : List GToken) (c : Option (List Element)),
      (∀ l, c = some l → buildDependencies g d g.tokens.list = .ok l) →
      (toPathCalls g d hist c).1 = hist.map (toPath g d) ∧
      (∀ l, (toPathCalls g d hist c).2 = some l → buildDependencies g d g.tokens.list = .ok l) := by
    intro hist
    induction hist with
    | nil => intro c hc; exact ⟨rfl, hc⟩
    | cons u us ih =>
      intro c hc
      obtain ⟨h1, h2⟩ := key u c hc
      obtain ⟨h3, h4⟩ := ih _ h2
      refine ⟨?_, h4⟩
      simp only [toPathCalls, List.map_cons, h1, h3]
  obtain ⟨h1, h2⟩ := calls hist none (by simp)
  exact ⟨(key t _ h2).1, h1⟩

/-- The grammar `A := a B | b`, `B := A`, `C := C`. -/
def exGe (c : GContent) : GInstr := .element ⟨c, lit "x", none⟩
def exGr (n s : String) : GContent := .rule (exC n s)
def exGA : GToken := ⟨lit "A", [[exGe (exGr "ra" "a"), exGe (.token (lit "B") [])], [exGe (exGr "rb" "b")]], none, none⟩
def exGB : GToken := ⟨lit "B", [[exGe (.token (lit "A") [])]], none, none⟩
def exGC : GToken := ⟨lit "C", [[exGe (.token (lit "C") [])]], none, none⟩

def exGenv (l : List GToken) : PathEnv := match tokensNow l with
  | .ok t => { tokens := t }
  | _ => { tokens := ⟨[], .empty⟩ }

example : tokensNow [exGA, exGB] = .ok (exGenv [exGA, exGB]).tokens ∧ (∃ p, toPath (exGenv [exGA, exGB]) 3 exGA = .ok p) ∧
    toPath (exGenv [exGA, exGC]) 3 exGA = .err ∧ toPath (exGenv [exGA]) 3 exGA = .err := by
  refine ⟨rfl, ⟨_, rfl⟩, rfl, rfl⟩

/-- C66 (violation): the compiler wants to refuse grammars without progress (`C := C` is refused), but two tokens which stand
for each other are accepted: neither of them has a word, whatever the channels. -/
theorem C66_mutual_accepted (a b : Str) (ha : a ≠ []) (hb : b ≠ []) (hab : a ≠ b) (chans : List GToken) (code : Str)
    (A B : GToken) (hA : A = ⟨a, [[.element ⟨.token b [], code, none⟩]], none, none⟩)
    (hB : B = ⟨b, [[.element ⟨.token a [], code, none⟩]], none, none⟩) :
    ∃ set, tokensNow [A, B] = .ok set ∧ (∃ p, toPath { tokens := set } 3 A = .ok p) ∧
      ∀ w, ¬ GWord [A, B] chans (.tok A) w := by
  have hset : ∃ set, tokensNow [A, B] = .ok set := (C38_unique_iff [A, B]).1.mpr (by subst hA hB; simp [hab])
  obtain ⟨set, hset⟩ := hset
  have hlist := (C38_unique_find [A, B] set hset).1
  refine ⟨set, hset, ?_, ?_⟩
  · refine (C66_compiles_iff { tokens := set } [A, B] hset A 3 (by simp)).mpr ?_
    have key : ∀ u ∈ [A, B], GComplete u ∧ GDeclared { tokens := set } u ∧ GProgress { tokens := set } u := by
      intro u hu
      have : u = A ∨ u = B := by simpa using hu
      rcases this with rfl | rfl
      · subst hA
        refine ⟨⟨ha, by simp, by simp [GToken.lines], by simp [GToken.lines]⟩, ?_, ?_⟩
        · intro l hl e he name specs hc
          simp [GToken.lines] at hl; subst hl
          simp at he; subst he
          simp at hc
          exact .inr (.inl ⟨B, by simp [hlist], by rw [hB]; exact hc.1⟩)
        · intro _ l hl e specs hc hf
          simp [GToken.lines] at hl; subst hl
          simp at hf; subst hf
          simp at hc
          exact hab hc.1.symm
      · subst hB
        refine ⟨⟨hb, by simp, by simp [GToken.lines], by simp [GToken.lines]⟩, ?_, ?_⟩
        · intro l hl e he name specs hc
          simp [GToken.lines] at hl; subst hl
          simp at he; subst he
          simp at hc
          exact .inr (.inl ⟨A, by simp [hlist], by rw [hA]; exact hc.1⟩)
        · intro _ l hl e specs hc hf
          simp [GToken.lines] at hl; subst hl
          simp at hf; subst hf
          simp at hc
          exact hab hc.1
    exact ⟨key, (key A (by simp)).1, (key A (by simp)).2.1⟩
  · have key : ∀ c w, GWord [A, B] chans c w → (c = .tok A ∨ c = .tok B ∨ (∃ l ∈ A.must ++ B.must, c = .line l) ∨
        ∃ l ∈ A.must ++ B.must, ∃ e, .element e ∈ l ∧ c = .elem e) → False := by
      intro c w h
      have hl : ∀ l ∈ A.must ++ B.must, ∃ e, l = [.element e] ∧ e.card = none ∧ ∃ n, e.content = .token n [] := by
        subst hA hB
        intro l hl
        simp at hl
        rcases hl with rfl | rfl
        · exact ⟨_, rfl, rfl, _, rfl⟩
        · exact ⟨_, rfl, rfl, _, rfl⟩
      induction h with
      | @tok t l w hlm _ ih =>
        rintro (h | h | ⟨_, _, h⟩ | ⟨_, _, _, _, h⟩)
        · cases h
          exact ih (.inr (.inr (.inl ⟨l, by simp [hlm], rfl⟩)))
        · cases h
          exact ih (.inr (.inr (.inl ⟨l, by simp [hlm], rfl⟩)))
        · cases h
        · cases h
      | nil =>
        rintro (h | h | ⟨l, hm, h⟩ | ⟨_, _, _, _, h⟩) <;> cases h
        obtain ⟨e, he, _⟩ := hl _ hm
        cases he
      | switch _ ih =>
        rintro (h | h | ⟨l, hm, h⟩ | ⟨_, _, _, _, h⟩) <;> cases h
        obtain ⟨e, he, _⟩ := hl _ hm
        cases he
      | cons _ _ _ _ ih _ =>
        rintro (h | h | ⟨l, hm, h⟩ | ⟨_, _, _, _, h⟩) <;> cases h
        exact ih (.inr (.inr (.inr ⟨_, hm, _, by simp, rfl⟩)))
      | gapNil => rintro (h | h | ⟨l, hm, h⟩ | ⟨_, _, _, _, h⟩) <;> cases h
      | gapCons => rintro (h | h | ⟨l, hm, h⟩ | ⟨_, _, _, _, h⟩) <;> cases h
      | @ref e name specs t ws hc ht hn hw hs ih =>
        rintro (h | h | ⟨l, hm, h⟩ | ⟨l, hm, _, hel, h⟩) <;> cases h
        obtain ⟨e', he', hcard, _⟩ := hl _ hm
        rw [he'] at hel
        simp at hel
        subst hel
        rw [hcard] at hs
        cases ws with
        | nil => simp [SpecAllows] at hs
        | cons w ws =>
          refine ih w (by simp) ?_
          have : t = A ∨ t = B := by simpa using ht
          rcases this with rfl | rfl
          · exact .inl rfl
          · exact .inr (.inl rfl)
      | @rule e r ws hc _ _ =>
        rintro (h | h | ⟨l, hm, h⟩ | ⟨l, hm, _, hel, h⟩) <;> cases h
        obtain ⟨e', he', _, n, hn⟩ := hl _ hm
        rw [he'] at hel
        simp at hel
        subst hel
        rw [hn] at hc
        cases hc
    exact fun w h => key _ w h (.inl rfl)

example : lit "A" ≠ [] ∧ lit "B" ≠ [] ∧ lit "A" ≠ lit "B" := by decide

/-! ## C67: the meaning is kept -/

/-- Looking up the token: it is in the grammar, or its name is not used there. -/
def GFits (ts : List GToken) (t : GToken) : Prop := ∀ u ∈ ts, u.name = t.name → u = t

/-- C67: the words of the compiled root are exactly the words of the root token of the grammar, recursion included. -/
theorem C67_language (g : PathEnv) (ts : List GToken) (h : tokensNow ts = .ok g.tokens) (hclosed : GClosed g)
    (root : GToken) (channels : TokenSet) (hroot : GFits ts root) (hch : ∀ c ∈ channels.list, GFits ts c) (d : Nat) (p : Path)
    (ps : List Path) (hm : matcherNow g d root (some channels) = .ok (p, ps)) (w : Str) :
    InElement ps p.deps p.element w ↔ GWord ts channels.list (.tok root) w := by
  obtain ⟨hg, hl⟩ := TokensOk.of h
  subst hl
  simp only [matcherNow, Out.bind_eq_ok] at hm
  obtain ⟨p', h1, ps', h2, h3⟩ := hm
  simp at h3
  obtain ⟨rfl, rfl⟩ := h3
  have hcs := forall2_mem (channelPaths_each h2)
  obtain ⟨a1, a2, _⟩ := toPath_unf hg hclosed h1 hroot
  constructor
  · intro hw
    refine inElement_word hg hclosed ?_ hw a2 (stack := []) (by simp [StackOk]) a1
    intro ch hch'
    obtain ⟨t, ht, htp⟩ := hcs.2 ch hch'
    obtain ⟨b1, b2, _⟩ := toPath_unf hg hclosed htp (hch t ht)
    exact ⟨t, ht, b1, b2⟩
  · intro hw
    refine word_in hg hclosed (chans := ps') (c := .tok root) ?_ hw [] _ _ (by simp [StackOk]) a2 a1
    intro t ht
    obtain ⟨ch, hch', htp⟩ := hcs.1 t ht
    obtain ⟨b1, b2, _⟩ := toPath_unf hg hclosed htp (hch t ht)
    exact ⟨ch, hch', b1, b2⟩

/-- C67: the same without channels. -/
theorem C67_language_no_channels (g : PathEnv) (ts : List GToken) (h : tokensNow ts = .ok g.tokens) (hclosed : GClosed g)
    (root : GToken) (hroot : GFits ts root) (d : Nat) (p : Path)
    (ps : List Path) (hm : matcherNow g d root none = .ok (p, ps)) (w : Str) :
    ps = [] ∧ (InElement [] p.deps p.element w ↔ GWord ts [] (.tok root) w) := by
  obtain ⟨hg, hl⟩ := TokensOk.of h
  subst hl
  simp only [matcherNow, Out.bind_eq_ok] at hm
  obtain ⟨p', h1, h3⟩ := hm
  simp at h3
  obtain ⟨rfl, rfl⟩ := h3
  obtain ⟨a1, a2, _⟩ := toPath_unf hg hclosed h1 hroot
  refine ⟨rfl, ?_, ?_⟩
  · intro hw
    exact inElement_word hg hclosed (by simp) hw a2 (stack := []) (by simp [StackOk]) a1
  · intro hw
    exact word_in hg hclosed (chans := []) (c := .tok root) (by simp) hw [] _ _ (by simp [StackOk]) a2 a1

/-- C67 with C55: for grammars without recursion whose optional parts stand at the ends of the lines, the text of a valid
token is a word of the grammar. -/
theorem C67_valid_is_word (g : PathEnv) (ts : List GToken) (h : tokensNow ts = .ok g.tokens) (hclosed : GClosed g)
    (root : GToken) (channels : TokenSet) (hroot : GFits ts root) (hch : ∀ c ∈ channels.list, GFits ts c)
    (hsimple : GSimple ts root) (hcsimple : ∀ c ∈ channels.list, GSimple ts c) (d : Nat) (p : Path)
    (ps : List Path) (hm : matcherNow g d root (some channels) = .ok (p, ps)) (env : Env) (henv : env.root = p)
    (hperm : ∀ k, (env.channels k).Perm ps) (fuel : Nat) (script : Str) (hlen : script.length < 2 ^ 63) (st st' : St)
    (t : Token) (hrun : toToken env fuel script st = some (.ok t, st')) (hv : t.isValid = true) :
    GWord ts channels.list (.tok root) t.discoveries := by
  refine (C67_language g ts h hclosed root channels hroot hch d p ps hm _).mp ?_
  obtain ⟨hg, hl⟩ := TokensOk.of h
  subst hl
  simp only [matcherNow, Out.bind_eq_ok] at hm
  obtain ⟨p', h1, ps', h2, h3⟩ := hm
  simp at h3
  obtain ⟨rfl, rfl⟩ := h3
  have hcs := forall2_mem (channelPaths_each h2)
  obtain ⟨a1, a2, _⟩ := toPath_unf hg hclosed h1 hroot
  have hpr := unf_plain hg hclosed hsimple (by simp [Leads]) a1
  have hpc : ∀ ch ∈ ps', Plain ch.element ∧ AllLines OptionalTail ch.element := by
    intro ch hch'
    obtain ⟨t, ht, htp⟩ := hcs.2 ch hch'
    obtain ⟨b1, _, _⟩ := toPath_unf hg hclosed htp (hch t ht)
    exact unf_plain hg hclosed (hcsimple t ht) (by simp [Leads]) b1
  have := C55_language_sound env ps' (fun k q hq => (hperm k).mem_iff.mp hq) (fun ch hc => (hpc ch hc).1)
    (fun ch hc => (hpc ch hc).2) (henv ▸ hpr.1) (henv ▸ hpr.2) fuel script hlen st st' t hrun hv
  rw [henv] at this
  exact this

/-- The grammar `S := D D*`, `D := a | b` with the channel `W := _`, on the script `a_b!`. -/
def exGD : GToken := ⟨lit "D", [[exGe (exGr "ra" "a")], [exGe (exGr "rb" "b")]], none, none⟩
def exGS : GToken := ⟨lit "S", [[exGe (.token (lit "D") []),
  .element ⟨.token (lit "D") [], lit "x", some .zeroMultiple⟩]], none, none⟩
def exGW : GToken := ⟨lit "W", [[exGe (exGr "rw" "_")]], none, none⟩
def exGps : Path × List Path := match tokensNow [exGW] with
  | .ok cs => match matcherNow (exGenv [exGS, exGD]) 3 exGS (some cs) with
    | .ok r => r
    | _ => (⟨.mk [] [] [], []⟩, [])
  | _ => (⟨.mk [] [] [], []⟩, [])

example : (∃ cs, tokensNow [exGW] = .ok cs ∧ matcherNow (exGenv [exGS, exGD]) 3 exGS (some cs) = .ok exGps) ∧
    tokensNow [exGS, exGD] = .ok (exGenv [exGS, exGD]).tokens ∧
    GSimple [exGS, exGD] exGS ∧ GSimple [exGS, exGD] exGW ∧ GFits [exGS, exGD] exGW ∧
    (∃ t st', toToken ⟨exGps.1, fun _ => exGps.2⟩ 30 (lit "a_b!") exSt = some (.ok t, st') ∧ t.isValid = true ∧
      t.discoveries = lit "a_b") := by
  have hD : GSimple [exGS, exGD] exGD := by
    refine .mk rfl ?_ ?_ ?_
    · intro l hl; simp [exGD] at hl; rcases hl with rfl | rfl <;> simp [GOptionalTail, exGe]
    · intro l hl e he r hr; simp [exGD] at hl; rcases hl with rfl | rfl <;> simp [exGe] at he <;> subst he <;> simp [exGr] at hr <;>
        subst hr <;> simp [RuleWF, exC]
    · intro l hl e he n s hc; simp [exGD] at hl; rcases hl with rfl | rfl <;> simp [exGe] at he <;> subst he <;> simp [exGr] at hc
  refine ⟨⟨_, rfl, rfl⟩, rfl, ?_, ?_, ?_, ?_⟩
  · refine .mk rfl ?_ ?_ ?_
    · intro l hl; simp [exGS] at hl; subst hl; exact ⟨by simp; decide, by simp, trivial⟩
    · intro l hl e he r hr; simp [exGS, exGe] at hl; subst hl; simp at he; rcases he with rfl | rfl <;> simp at hr
    · intro l hl e he n s hc u hu hn; simp [exGS, exGe] at hl; subst hl
      have hn' : n = lit "D" := by
        simp at he; rcases he with rfl | rfl <;> simp at hc <;> exact hc.1.symm
      subst hn'
      simp at hu
      rcases hu with rfl | rfl
      · exact absurd hn (by decide)
      · exact hD
  · refine .mk rfl ?_ ?_ ?_
    · intro l hl; simp [exGW] at hl; subst hl; simp [GOptionalTail, exGe]
    · intro l hl e he r hr; simp [exGW] at hl; subst hl; simp [exGe] at he; subst he; simp [exGr] at hr
      subst hr; simp [RuleWF, exC]
    · intro l hl e he n s hc; simp [exGW] at hl; subst hl; simp [exGe] at he; subst he; simp [exGr] at hc
  · intro u hu hn
    simp at hu
    rcases hu with rfl | rfl <;> exact absurd hn (by decide)
  · obtain ⟨t, st', h1, h2⟩ := of_shows (f := fun t => (t.isValid, t.discoveries)) (v := (true, lit "a_b"))
      (x := toToken ⟨exGps.1, fun _ => exGps.2⟩ 30 (lit "a_b!") exSt) (by decide +kernel)
    simp at h2
    exact ⟨t, st', h1, h2⟩

end Verif.Lexer
