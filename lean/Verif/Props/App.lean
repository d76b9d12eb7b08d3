import Verif.Spec.App
import Verif.Props.Suites
import Verif.Props.GrammarRec

/-!
# Properties of the application of the lexer
-/

namespace Verif.Lexer
open Verif.Patterns Verif.Cardinality

theorem linkToPathFromFile_fails (fe : Frontend) (base : FilePaths) (l : RLink) (p : Path) : linkToPathFromFile fe base l ≠ .ok p := by
  intro h
  simp only [linkToPathFromFile, Out.bind_eq_ok] at h
  obtain ⟨_, _, _, _, c, h, _⟩ := h
  simp [resContainerNow] at h

theorem fetchNotFound_fails {fe : Frontend} {base : FilePaths} {r : References} {l : RLink} {ls : List RLink}
    (hr : r.references = some (l :: ls)) (x : GoMap Path) : fetchNotFoundPaths fe base r ≠ .ok x := by
  intro h
  simp only [fetchNotFoundPaths, hr, notFoundLoop, Out.bind_eq_ok] at h
  obtain ⟨p, h, _⟩ := h
  exact linkToPathFromFile_fails _ _ _ _ h

theorem appCall_fails {α : Type} {fe : Frontend} {base : FilePaths} {d : Nat} {c : ResContainer} {tokens : Out (α × TokenSet)}
    {m : GoMap Path} {r : References} {l : RLink} {ls : List RLink} (h : fe.toReferences c.tokens = .ok r)
    (hr : r.references = some (l :: ls)) (x : α × PathEnv) : (appCall fe base d c tokens m).1 ≠ .ok x := by
  unfold appCall
  cases tokens with
  | err => simp
  | panic => simp
  | ok a =>
    obtain ⟨a, ts⟩ := a
    simp only [h]
    cases hc : createFuncs fe base d c r ts m with
    | mk o m' =>
      cases o with
      | err => simp
      | panic => simp
      | ok g =>
        exfalso
        unfold createFuncs at hc
        cases hf : fetchReplacementPaths fe base d c r m with
        | mk o' m'' =>
          simp only [hf] at hc
          cases o' with
          | err => simp at hc
          | panic => simp at hc
          | ok _ =>
            simp only [Prod.mk.injEq] at hc
            obtain ⟨hc, _⟩ := hc
            simp only [Out.bind_eq_ok] at hc
            obtain ⟨nf, hc, _⟩ := hc
            exact fetchNotFound_fails hr _ hc

/-- C49 (violation): a grammar with a reference to a token of another file can never be used: whatever the files contain and
whatever was called before, none of the four calls returns a result. -/
theorem C49_references_fail (fe : Frontend) (base : FilePaths) (d : Nat) (c : ResContainer) (r : References) (l : RLink)
    (ls : List RLink) (h : fe.toReferences c.tokens = .ok r) (hr : r.references = some (l :: ls)) (m : GoMap Path) :
    (∀ root p, (appPath fe base d root c m).1 ≠ .ok p) ∧
    (∀ order fuel root channels content ast, (appAST fe base d order fuel root c channels content m).1 ≠ some (.ok ast)) ∧
    (∀ order fuel root channels content x, (appRoot fe base d order fuel root c channels content m).1 ≠ some (.ok x)) ∧
    (∀ order fuel channels suites, (appTests fe base d order fuel c channels m).1 ≠ some (.ok suites)) := by
  have hast : ∀ order fuel root channels content ast, (appAST fe base d order fuel root c channels content m).1 ≠ some (.ok ast) := by
    intro order fuel root channels content ast
    simp only [appAST]
    cases hx : (appCall fe base d c (do let (t, ts, cs) ← createRootToken fe root c channels; return ((t, cs), ts)) m).1 with
    | err => simp
    | panic => simp
    | ok x => exact absurd hx (appCall_fails h hr x)
  refine ⟨?_, hast, ?_, ?_⟩
  · intro root p hp
    simp only [appPath, Out.bind_eq_ok] at hp
    obtain ⟨x, hx, _⟩ := hp
    exact appCall_fails h hr x hx
  · intro order fuel root channels content x
    simp only [appRoot]
    cases ha : (appAST fe base d order fuel root c channels content m).1 with
    | none => simp
    | some o =>
      cases o with
      | err => simp
      | panic => simp
      | ok ast => exact absurd ha (hast _ _ _ _ _ _)
  · intro order fuel channels suites
    simp only [appTests]
    cases hx : (appCall fe base d c (do let (ts, cs) ← createTokens fe c channels; return (cs, ts)) m).1 with
    | err => simp
    | panic => simp
    | ok x => exact absurd hx (appCall_fails h hr x)

theorem createTokens_ok {fe : Frontend} {c : ResContainer} {channels : Str} {ts : TokenSet} {cs : Option TokenSet} :
    createTokens fe c channels = .ok (ts, cs) ↔ Reads fe c channels ts cs := by
  unfold createTokens Reads
  simp only [Out.bind_eq_ok]
  constructor
  · rintro ⟨ps, h1, rs, h2, ts', h3, h4⟩
    split at h4
    · rename_i hc
      simp only [Out.bind_eq_ok] at h4
      obtain ⟨x, h4, h5⟩ := h4
      simp at h5
      obtain ⟨rfl, rfl⟩ := h5
      exact ⟨ps, rs, h1, h2, h3, by simp [hc, h4]⟩
    · rename_i hc
      simp at h4 hc
      obtain ⟨rfl, rfl⟩ := h4
      exact ⟨ps, rs, h1, h2, h3, by simp [hc]⟩
  · rintro ⟨ps, rs, h1, h2, h3, h4⟩
    refine ⟨ps, h1, rs, h2, ts, h3, ?_⟩
    split at h4
    · rename_i hc
      simp [hc, h4]
    · rename_i hc
      obtain ⟨x, rfl, h4⟩ := h4
      simp [hc, h4]

/-- The exact outcome: if the files can be read as tokens and nothing is replaced, it is an error. -/
theorem C49_references_error (fe : Frontend) (base : FilePaths) (d : Nat) (c : ResContainer) (l : RLink)
    (ls : List RLink) (h : fe.toReferences c.tokens = .ok ⟨some (l :: ls), none⟩) (hread : ∀ b p, fe.read b p ≠ .panic)
    (root : GToken) (ts : TokenSet) (hts : Reads fe c [] ts none) (hroot : ts.find root.name = .ok root) (m : GoMap Path) :
    appPath fe base d root.name c m = (.err, m) := by
  have hl : linkToPathFromFile fe base l = .err := by
    unfold linkToPathFromFile
    cases h1 : fe.read base.rules l.paths.rules with
    | panic => exact absurd h1 (hread _ _)
    | err => rfl
    | ok a =>
      cases h2 : fe.read base.tokens l.paths.tokens with
      | panic => exact absurd h2 (hread _ _)
      | err => rfl
      | ok b => simp [resContainerNow]
  have hc : createRootToken fe root.name c [] = .ok (root, ts, none) := by
    simp [createRootToken, createTokens_ok.mpr hts, hroot]
  simp [appPath, appCall, hc, h, createFuncs, fetchReplacementPaths, fetchNotFoundPaths, notFoundLoop, hl]

theorem createFuncs_closed {fe : Frontend} {base : FilePaths} {d : Nat} {c : ResContainer} {ts : TokenSet} {m : GoMap Path} :
    createFuncs fe base d c ⟨none, none⟩ ts m = (.ok (appEnv ts GoMap.empty m), m) := by
  simp [createFuncs, fetchReplacementPaths, fetchNotFoundPaths]

theorem appEnv_empty (ts : TokenSet) : appEnv ts GoMap.empty GoMap.empty = { tokens := ts } := rfl

/-- C49: for a grammar without links and an application which remembers no replacement, the calls do what they do for the
tokens of the grammar alone, and nothing is remembered. -/
theorem C49_no_links (fe : Frontend) (base : FilePaths) (d : Nat) (c : ResContainer) (hc : NoLinks fe c) (channels : Str) (ts : TokenSet)
    (cs : Option TokenSet) (h : Reads fe c channels ts cs) :
    (∀ root t, ts.find root = .ok t → ∀ order fuel content, ∃ r,
      appAST fe base d order fuel root c channels content GoMap.empty = (r, GoMap.empty) ∧
      ∀ ast, r = some (.ok ast) ↔ ∃ p ps st, matcherNow { tokens := ts } d t cs = .ok (p, ps) ∧
        toAST ⟨p, order ps⟩ content.isPrefixLegal fuel content.content ⟨content.isPrefixLegal, fun _ => none, 0⟩ = some (.ok ast, st)) ∧
    (∀ order fuel, appTests fe base d order fuel c channels GoMap.empty =
      (execute { tokens := ts } cs d order fuel, GoMap.empty)) := by
  have hct := createTokens_ok.mpr h
  constructor
  · intro root t ht order fuel content
    have hr : createRootToken fe root c channels = .ok (t, ts, cs) := by
      simp [createRootToken, hct, ht]
    refine ⟨_, Prod.ext rfl ?_, ?_⟩
    · simp [appAST, appCall, hr, NoLinks.eq_1 fe c ▸ hc, createFuncs_closed]
    · intro ast
      have hx : appCall fe base d c (do let (t, ts, cs) ← createRootToken fe root c channels; return ((t, cs), ts)) GoMap.empty =
          (.ok ((t, cs), { tokens := ts }), GoMap.empty) := by
        simp [appCall, hr, show fe.toReferences c.tokens = .ok ⟨none, none⟩ from hc, createFuncs_closed, appEnv_empty]
      simp only [appAST, hx]
      cases hm : matcherNow { tokens := ts } d t cs with
      | err => simp
      | panic => simp
      | ok pp =>
        obtain ⟨p, ps⟩ := pp
        simp only [Option.map_eq_some_iff, Out.ok.injEq, Prod.mk.injEq]
        constructor
        · rintro ⟨⟨o, st⟩, h1, h2⟩
          simp at h2
          subst h2
          exact ⟨p, ps, st, ⟨rfl, rfl⟩, h1⟩
        · rintro ⟨p', ps', st, ⟨rfl, rfl⟩, h1⟩
          exact ⟨_, h1, rfl⟩
  · intro order fuel
    simp [appTests, appCall, hct, show fe.toReferences c.tokens = .ok ⟨none, none⟩ from hc, createFuncs_closed, appEnv_empty]

/-- C49 with C67: for such a grammar without recursion and `not` lines, a success (prefixes not being legal) means that the
content begins with a word of the root token. -/
theorem C49_success_word (fe : Frontend) (base : FilePaths) (d : Nat) (c : ResContainer) (hc : NoLinks fe c) (channels : Str)
    (tl : List GToken) (ts : TokenSet) (htl : tokensNow tl = .ok ts)
    (cs : Option TokenSet) (h : Reads fe c channels ts cs) (t : GToken) (ht : t ∈ tl) (hn : ∀ u ∈ tl, u.not = none)
    (hs : GSimple tl t) (hch : ∀ x ∈ chanList cs, GSimple tl x ∧ ∀ u ∈ tl, u.name = x.name → u = x)
    (order : List Path → Nat → List Path) (hperm : ∀ ps k, (order ps k).Perm ps) (fuel : Nat) (content : Content)
    (hpre : content.isPrefixLegal = false) (hlen : content.content.length < 2 ^ 63) (a : AToken)
    (hrun : (appAST fe base d order fuel t.name c channels content GoMap.empty).1 = some (.ok (.success a))) :
    ∃ w, w <+: content.content ∧ GWord tl (chanList cs) (.tok t) w := by
  obtain ⟨_, hf, _, _⟩ := C38_unique_find tl ts htl
  obtain ⟨r, h1, h2⟩ := (C49_no_links fe base d c hc channels ts cs h).1 t.name t ((hf _ _).mpr ⟨ht, rfl⟩) order fuel content
  rw [h1] at hrun
  obtain ⟨p, ps, st, h3, h4⟩ := (h2 _).mp hrun
  rw [hpre] at h4
  exact C50_success_word { tokens := ts } tl htl ⟨fun _ => rfl, fun _ => rfl⟩ hn t ht hs cs hch d order hperm fuel content.content hlen
    ⟨p, ps, _, st, h3, h4, by simp⟩

/-! ## Replacements -/

/-- The token sets of the front-end are made by their builder. -/
def BuiltTokens (fe : Frontend) : Prop := ∀ rs s ts, fe.toTokens rs s = .ok ts → ∃ tl, tokensNow tl = .ok ts

theorem toPath_name {g : PathEnv} {d : Nat} {t : GToken} {p : Path} (h : toPath g d t = .ok p) : p.element.name = t.name := by
  simp only [toPath, Out.bind_eq_ok] at h
  obtain ⟨_, _, ⟨e, ext⟩, h2, h3⟩ := h
  simp at h3
  subst h3
  exact unf_name (toElement_unf d h2)

theorem pathSkip_name {fe : Frontend} (hb : BuiltTokens fe) {base : FilePaths} {d : Nat} {root : Str} {c : ResContainer}
    {m : GoMap Path} {p : Path} (h : pathSkip fe base d root c m = .ok p) : p.element.name = root := by
  simp only [pathSkip, Out.bind_eq_ok] at h
  obtain ⟨⟨t, ts, cs⟩, h1, r, h2, nf, h3, h4⟩ := h
  rw [toPath_name h4]
  simp only [createRootToken, Out.bind_eq_ok] at h1
  obtain ⟨⟨ts', cs'⟩, h5, t', h6, h7⟩ := h1
  simp at h7
  obtain ⟨rfl, rfl, rfl⟩ := h7
  obtain ⟨_, rs, _, _, h8, _⟩ := createTokens_ok.mp h5
  obtain ⟨tl, htl⟩ := hb _ _ _ h8
  exact (((C38_unique_find tl ts' htl).2.1 root t').mp h6).2

theorem replacementLoop_spec {fe : Frontend} (hb : BuiltTokens fe) {base : FilePaths} {d : Nat} {c : ResContainer} :
    ∀ {l : List RLink} {m m' : GoMap Path}, replacementLoop fe base d c l m = (.ok (), m') → ∀ k,
      (∃ a q, LastNamed RLink.refToken l k a ∧ m' k = some q ∧ q.element.name = a.localToken) ∨
      ((∀ a ∈ l, a.refToken ≠ k) ∧ m' k = m k) := by
  intro l
  induction l with
  | nil =>
    intro m m' h k
    simp [replacementLoop] at h
    right
    simp [h]
  | cons a l ih =>
    intro m m' h k
    unfold replacementLoop at h
    cases hp : (do let (root, c) ← resPathNow a.localToken c; pathSkip fe base d root c m) with
    | err => simp [hp] at h
    | panic => simp [hp] at h
    | ok p =>
      simp only [hp] at h
      have hname : p.element.name = a.localToken := by
        simp only [resPathNow, Out.bind_eq_ok] at hp
        obtain ⟨⟨root, c'⟩, h1, h2⟩ := hp
        split at h1
        · simp at h1
        · simp at h1
          obtain ⟨rfl, rfl⟩ := h1
          exact pathSkip_name hb h2
      rcases ih h k with ⟨b, q, hl, h1, h2⟩ | ⟨h1, h2⟩
      · refine .inl ⟨b, q, ?_, h1, h2⟩
        obtain ⟨pre, post, rfl, h3, h4⟩ := hl
        exact ⟨a :: pre, post, rfl, h3, h4⟩
      · by_cases hk : k = a.refToken
        · refine .inl ⟨a, p, ⟨[], l, rfl, hk.symm, h1⟩, ?_, hname⟩
          rw [h2]
          simp [GoMap.set, hk]
        · refine .inr ⟨?_, ?_⟩
          · intro b hb'
            rcases List.mem_cons.mp hb' with rfl | hb'
            · exact fun h => hk h.symm
            · exact h1 b hb'
          · rw [h2]
            simp [GoMap.set, hk]

theorem appCall_map {α : Type} {fe : Frontend} (hb : BuiltTokens fe) {base : FilePaths} {d : Nat} {c : ResContainer}
    {tokens : Out (α × TokenSet)} {m : GoMap Path} {r : References} (hr : fe.toReferences c.tokens = .ok r) :
    (r.replacements = none → (appCall fe base d c tokens m).2 = m) ∧
    (∀ x, (appCall fe base d c tokens m).1 = .ok x → ∀ k,
      x.2.replace k = ((appCall fe base d c tokens m).2 k).map (fun p => (p.element, p.deps)) ∧
      ((∃ a q, LastNamed RLink.refToken (r.replacements.getD []) k a ∧ (appCall fe base d c tokens m).2 k = some q ∧
        q.element.name = a.localToken) ∨
      ((∀ a ∈ r.replacements.getD [], a.refToken ≠ k) ∧ (appCall fe base d c tokens m).2 k = m k))) := by
  unfold appCall
  cases tokens with
  | err => simp
  | panic => simp
  | ok a =>
    obtain ⟨a, ts⟩ := a
    simp only [hr]
    unfold createFuncs
    cases hrep : r.replacements with
    | none =>
      simp only [fetchReplacementPaths, hrep]
      cases hn : fetchNotFoundPaths fe base r with
      | err => simp
      | panic => simp
      | ok nf => simp [appEnv]
    | some l =>
      simp only [fetchReplacementPaths, hrep]
      cases hl : replacementLoop fe base d c l m with
      | mk o m' =>
        cases o with
        | err => simp
        | panic => simp
        | ok u =>
          cases hn : fetchNotFoundPaths fe base r with
          | err => simp
          | panic => simp
          | ok nf =>
            simp only [Out.bind_ok, Out.pure_eq, reduceCtorEq, false_implies, true_and]
            intro x hx k
            simp at hx
            subst hx
            refine ⟨rfl, ?_⟩
            have := replacementLoop_spec hb (show replacementLoop fe base d c l m = (.ok (), m') from hl) k
            simpa using this

/-- C70: after a call with result, the application remembers for each replaced name the path of the local token of the last
replacement of this name in the grammar, and for all the other names what it remembered before. A grammar without replacements
changes nothing. -/
theorem C70_remembers (fe : Frontend) (hb : BuiltTokens fe) (base : FilePaths) (d : Nat) (root : Str) (c : ResContainer) (m : GoMap Path)
    (r : References) (hr : fe.toReferences c.tokens = .ok r) :
    (r.replacements = none → (appPath fe base d root c m).2 = m) ∧
    (∀ p, (appPath fe base d root c m).1 = .ok p → ∀ k,
      (∃ a q, LastNamed RLink.refToken (r.replacements.getD []) k a ∧ (appPath fe base d root c m).2 k = some q ∧
        q.element.name = a.localToken) ∨
      ((∀ a ∈ r.replacements.getD [], a.refToken ≠ k) ∧ (appPath fe base d root c m).2 k = m k)) := by
  have h := appCall_map hb (base := base) (d := d) (m := m)
    (tokens := (do let (t, ts, _) ← createRootToken fe root c []; return (t, ts))) hr
  refine ⟨h.1, ?_⟩
  intro p hp k
  simp only [appPath, Out.bind_eq_ok] at hp
  obtain ⟨x, hx, _⟩ := hp
  exact (h.2 x hx k).2

theorem inElement_const {deps : List Element} {n : Str} {r : Rule} {c : Str} (hc : r.content = .constant c) (h0 : c ≠ []) {w : Str} :
    InElement [] deps (.mk n [[.container (.rule r .mandatory)]] []) w ↔ w = c := by
  have hg : ∀ g, InChannels [] g → g = [] := by
    intro g h
    cases h with
    | nil => rfl
    | cons h _ _ => simp at h
  constructor
  · intro h
    cases h with
    | mk hl hw =>
      simp [Element.must] at hl
      subst hl
      cases hw with
      | cons h1 h2 h3 =>
        cases h3
        cases h2 with
        | rule h4 h5 =>
          rename_i ws
          have := (mandatory_one _).mp h5
          obtain ⟨w, rfl⟩ := List.length_eq_one_iff.mp this
          have := h4 w (by simp)
          simp [RuleText, hc] at this
          simp [hg _ h1, this]
  · rintro rfl
    refine .mk (line := [.container (.rule r .mandatory)]) (by simp [Element.must]) ?_
    have := InLine.cons (chans := []) (deps := deps) (is := []) (c := .rule r .mandatory) InChannels.nil
      (.rule (ws := [w]) (by simpa [RuleText, hc] using h0) ((mandatory_one _).mpr rfl)) .nil
    simpa using this

theorem inElement_ref {deps : List Element} {n n' : Str} {r : Rule} {c : Str} (hc : r.content = .constant c) (h0 : c ≠ []) {w : Str} :
    InElement [] deps (.mk n [[.container (.token (.mk n' [[.container (.rule r .mandatory)]] []) [] .mandatory)]] []) w ↔ w = c := by
  have hg : ∀ g, InChannels [] g → g = [] := by
    intro g h
    cases h with
    | nil => rfl
    | cons h _ _ => simp at h
  constructor
  · intro h
    cases h with
    | mk hl hw =>
      simp [Element.must] at hl
      subst hl
      cases hw with
      | cons h1 h2 h3 =>
        cases h3
        cases h2 with
        | token h4 h5 =>
          rename_i ws
          have := (mandatory_one _).mp h5
          obtain ⟨w, rfl⟩ := List.length_eq_one_iff.mp this
          have := (inElement_const hc h0).mp (h4 w (by simp))
          simp [hg _ h1, this]
  · rintro rfl
    refine .mk (line := [.container (.token (.mk n' [[.container (.rule r .mandatory)]] []) [] .mandatory)]) (by simp [Element.must]) ?_
    have := InLine.cons (chans := []) (deps := deps) (is := []) (c := .token (.mk n' [[.container (.rule r .mandatory)]] []) [] .mandatory)
      InChannels.nil (.token (ws := [w]) (by simpa using (inElement_const hc h0).mpr rfl) ((mandatory_one _).mpr rfl)) .nil
    simpa using this

/-- C70 (violation): a call changes the results of the later calls for other grammars. The first grammar has the token `l` and
replaces `x` by it; the second one has no links, a token `x` of its own and a root which refers to it. In a new application the root
of the second grammar stands for the text of its own `x`; after a call with the first grammar it stands for the text of
the foreign `l`. -/
theorem C70_history (fe : Frontend) (base : FilePaths) (c1 c2 : ResContainer) (l x root inc code : Str) (fp : FilePaths)
    (hl : l ≠ []) (hx : x ≠ []) (hroot : root ≠ []) (hrx : root ≠ x) (rl rx : Rule) (cl cx : Str) (hcl : rl.content = .constant cl)
    (hcx : rx.content = .constant cx) (hl0 : cl ≠ []) (hx0 : cx ≠ []) (ts1 ts2 : TokenSet)
    (h1 : Reads fe c1 [] ts1 none) (h1' : tokensNow [⟨l, [[.element ⟨.rule rl, code, none⟩]], none, none⟩] = .ok ts1)
    (hr1 : fe.toReferences c1.tokens = .ok ⟨none, some [⟨inc, fp, l, x⟩]⟩)
    (h2 : Reads fe c2 [] ts2 none) (h2' : tokensNow [⟨root, [[.element ⟨.token x [], code, none⟩]], none, none⟩,
      ⟨x, [[.element ⟨.rule rx, code, none⟩]], none, none⟩] = .ok ts2)
    (hr2 : NoLinks fe c2) (d : Nat) :
    (∃ p, (appPath fe base (d + 2) root c2 GoMap.empty).1 = .ok p ∧ ∀ w, InElement [] p.deps p.element w ↔ w = cx) ∧
    (∃ p m, appPath fe base (d + 2) l c1 GoMap.empty = (.ok p, m) ∧
      ∃ p', (appPath fe base (d + 2) root c2 m).1 = .ok p' ∧ ∀ w, InElement [] p'.deps p'.element w ↔ w = cl) := by
  obtain ⟨e1, f1, _, _⟩ := C38_unique_find _ ts1 h1'
  obtain ⟨e2, f2, _, _⟩ := C38_unique_find _ ts2 h2'
  have g1 := (f1 l _).mpr ⟨List.mem_singleton.mpr rfl, rfl⟩
  have g2 := (f2 root ⟨root, [[.element ⟨.token x [], code, none⟩]], none, none⟩).mpr ⟨by simp, rfl⟩
  have g3 := (f2 x ⟨x, [[.element ⟨.rule rx, code, none⟩]], none, none⟩).mpr ⟨by simp, rfl⟩
  have k1 := createTokens_ok.mpr h1
  have k2 := createTokens_ok.mpr h2
  have hr2' : fe.toReferences c2.tokens = .ok ⟨none, none⟩ := hr2
  have nf : ∀ (ts : TokenSet) (m n : GoMap Path), (appEnv ts n m).tokens = ts := fun _ _ _ => rfl
  have p1 : ∀ m, toPath (appEnv ts1 GoMap.empty m) (d + 2) ⟨l, [[.element ⟨.rule rl, code, none⟩]], none, none⟩ =
      .ok ⟨.mk l [[.container (.rule rl .mandatory)]] [], [.mk l [[.container (.rule rl .mandatory)]] [], .mk l [[.container (.rule rl .mandatory)]] []]⟩ := by
    intro m
    simp [toPath, buildDependencies, nf, e1, toElement, processLines, processLine, processInstructions, elementToContainer, hl, elementNow,
      elementsIn]
  have p2 : ∃ deps, toPath (appEnv ts2 GoMap.empty GoMap.empty) (d + 2) ⟨root, [[.element ⟨.token x [], code, none⟩]], none, none⟩ =
      .ok ⟨.mk root [[.container (.token (.mk x [[.container (.rule rx .mandatory)]] []) [] .mandatory)]] [], deps⟩ := by
    simp [toPath, buildDependencies, nf, e2, toElement, processLines, processLine, processInstructions, elementToContainer,
      tokenReferenceToTokenPath, g3, appEnv, GoMap.empty, buildSpecifiers, mapOut, hroot, hx, elementNow, elementsIn]
  have p3 : ∀ q deps, ∃ deps', toPath (appEnv ts2 GoMap.empty (GoMap.set GoMap.empty x ⟨q, deps⟩)) (d + 2)
      ⟨root, [[.element ⟨.token x [], code, none⟩]], none, none⟩ =
      .ok ⟨.mk root [[.container (.token q [] .mandatory)]] [], deps'⟩ := by
    intro q deps
    simp [toPath, buildDependencies, nf, e2, toElement, processLines, processLine, processInstructions, elementToContainer,
      tokenReferenceToTokenPath, appEnv, GoMap.set, GoMap.empty, buildSpecifiers, mapOut, hroot, hx, elementNow, elementsIn]
  constructor
  · obtain ⟨deps, p2⟩ := p2
    refine ⟨⟨.mk root [[.container (.token (.mk x [[.container (.rule rx .mandatory)]] []) [] .mandatory)]] [], deps⟩, ?_, fun w => inElement_ref hcx hx0⟩
    simp [appPath, appCall, createRootToken, k2, g2, hr2', createFuncs_closed, p2]
  · obtain ⟨deps, p3⟩ := p3 (.mk l [[.container (.rule rl .mandatory)]] []) [.mk l [[.container (.rule rl .mandatory)]] [],
      .mk l [[.container (.rule rl .mandatory)]] []]
    have hskip : pathSkip fe base (d + 2) l c1 GoMap.empty = .ok ⟨.mk l [[.container (.rule rl .mandatory)]] [],
        [.mk l [[.container (.rule rl .mandatory)]] [], .mk l [[.container (.rule rl .mandatory)]] []]⟩ := by
      simp [pathSkip, createRootToken, k1, g1, hr1, fetchNotFoundPaths, p1]
    refine ⟨_, _, by
      simp [appPath, appCall, createRootToken, k1, g1, hr1, createFuncs, fetchReplacementPaths, replacementLoop, resPathNow, hl, hskip,
        fetchNotFoundPaths, p1]
      exact ⟨rfl, rfl⟩, ⟨.mk root [[.container (.token (.mk l [[.container (.rule rl .mandatory)]] []) [] .mandatory)]] [], deps⟩, ?_,
      fun w => inElement_ref hcl hl0⟩
    simp [appPath, appCall, createRootToken, k2, g2, hr2', createFuncs_closed, p3]

/-- A front-end which reads two fixed grammars. -/
def exSet (l : List GToken) : TokenSet := match tokensNow l with
  | .ok s => s
  | _ => ⟨[], GoMap.empty⟩
def exFe : Frontend where
  toPatterns := fun _ => .ok ⟨[], GoMap.empty⟩
  toRules := fun _ _ => .ok ⟨[], GoMap.empty⟩
  toTokens := fun _ s =>
    if s = lit "one" then tokensNow [⟨lit "l", [[.element ⟨.rule (exC "L" "a"), lit "L", none⟩]], none, none⟩]
    else tokensNow [⟨lit "root", [[.element ⟨.token (lit "x") [], lit "L", none⟩]], none, none⟩,
      ⟨lit "x", [[.element ⟨.rule (exC "X" "b"), lit "L", none⟩]], none, none⟩]
  toReferences := fun s => if s = lit "one" then .ok ⟨none, some [⟨lit "i", ⟨lit "r", lit "t"⟩, lit "l", lit "x"⟩]⟩
    else if s = lit "three" then .ok ⟨some [⟨lit "i", ⟨lit "r", lit "t"⟩, lit "x", lit "y"⟩], none⟩
    else .ok ⟨none, none⟩
  read := fun _ _ => .ok (lit "content")
  includePath := fun _ _ => .err

example : let c1 : ResContainer := ⟨lit "p", lit "r", lit "one"⟩
    let c2 : ResContainer := ⟨lit "p", lit "r", lit "two"⟩
    let c3 : ResContainer := ⟨lit "p", lit "r", lit "three"⟩
    Reads exFe c1 [] (exSet [⟨lit "l", [[.element ⟨.rule (exC "L" "a"), lit "L", none⟩]], none, none⟩]) none ∧
    NoLinks exFe c2 ∧ BuiltTokens exFe ∧
    (∃ p, (appPath exFe ⟨lit "b", lit "b"⟩ 2 (lit "root") c2 GoMap.empty).1 = .ok p) ∧
    appPath exFe ⟨lit "b", lit "b"⟩ 3 (lit "root") c3 GoMap.empty = (.err, GoMap.empty) := by
  refine ⟨⟨_, _, rfl, rfl, rfl, rfl⟩, rfl, ?_, ?_, rfl⟩
  · intro rs s ts h
    simp only [exFe] at h
    split at h <;> exact ⟨_, h⟩
  · exact ⟨_, rfl⟩

/-- The second grammar reads the content `b!` as a success and `a` as a mistake. -/
example : let c2 : ResContainer := ⟨lit "p", lit "r", lit "two"⟩
    let f : Option (Out AST) → Option Bool := fun o => o.map (fun x => match x with
      | .ok a => a.isSuccess
      | _ => false)
    f (appAST exFe ⟨lit "b", lit "b"⟩ 3 (fun ps _ => ps) 20 (lit "root") c2 [] ⟨lit "b!", false, false⟩ GoMap.empty).1 = some true ∧
    f (appAST exFe ⟨lit "b", lit "b"⟩ 3 (fun ps _ => ps) 20 (lit "root") c2 [] ⟨lit "a", false, false⟩ GoMap.empty).1 = some false := by
  decide +kernel

end Verif.Lexer
