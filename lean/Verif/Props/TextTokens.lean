import Verif.Lemmas.TextTokens4
import Verif.Lemmas.TextPanic
import Verif.Props.Containers

/-!
# Properties C83–C85: the texts of the tokens of a grammar
-/

namespace Verif.Text
open Verif.Regex Verif.Patterns Verif.Cardinality Verif.Lexer

/-- C83: the text of tokens is read as it is written, whatever the blanks in it: the tokens in their order with their names, lines,
lines which must not match and tests, and the elements of the lines with their names, cardinalities and specifiers. (A channel
switch right behind an element of which only the name is written is lost, see C84.) Without tokens, or if a name occurs twice, an error
is returned. -/
theorem C83_tokens_read (rules : RuleSet) (l : List TokenT) (w : Str) (h : ∀ t ∈ l, t.Ok rules) (hw : Blank w) :
    (l ≠ [] ∧ (l.map TokenT.name).Nodup → ∃ set, toTokens rules (tokensText l ++ w) = .ok set ∧
      List.Forall₂ (TokenShows rules) l set.list ∧ ∀ g ∈ set.list, set.find g.name = .ok g) ∧
    (¬ (l ≠ [] ∧ (l.map TokenT.name).Nodup) → toTokens rules (tokensText l ++ w) = .err) := by
  obtain ⟨gs, h1, h2⟩ := tokens_read (w := w) h hw false
  have hnames : gs.map GToken.name = l.map TokenT.name := by
    clear h h1
    induction h2 with
    | nil => rfl
    | cons hx _ ih => simp [hx.1, ih]
  have hnil : gs = [] ↔ l = [] := by
    constructor
    · rintro rfl; cases h2; rfl
    · rintro rfl; cases h2; rfl
  have e : toTokens rules (tokensText l ++ w) = tokensNow gs := by
    unfold toTokens
    rw [findAll_eq, h1]
    rfl
  have hiff := C38_unique_iff (name := GToken.name) gs
  rw [e]
  constructor
  · rintro ⟨q1, q2⟩
    obtain ⟨c, hc⟩ := hiff.1.2 ⟨fun hh => q1 (hnil.1 hh), by rw [hnames]; exact q2⟩
    obtain ⟨r1, r2, _⟩ := C38_unique_find gs c hc
    refine ⟨c, hc, by rw [r1]; exact h2, ?_⟩
    intro g hg
    rw [r1] at hg
    exact (r2 g.name g).2 ⟨hg, rfl⟩
  · intro hn
    have : ¬ ∃ c, uniqueNow GToken.name gs = .ok c := by
      rw [hiff.1, hnames]
      intro hh
      exact hn ⟨fun hh' => hh.1 (hnil.2 hh'), hh.2⟩
    show uniqueNow GToken.name gs = .err
    cases hu : uniqueNow GToken.name gs with
    | ok c => exact absurd ⟨c, hu⟩ this
    | err => rfl
    | panic => exact absurd hu hiff.2

theorem survivors_all (l : List Item) (b : Bool) (hb : b = true → l.head? ≠ some .switch)
    (h : ∀ u i v, l = u ++ i :: .switch :: v → i.bare = false) : survivors b l = l := by
  induction l generalizing b with
  | nil => rfl
  | cons i l ih =>
    have ht : ∀ u j v, l = u ++ j :: .switch :: v → j.bare = false := fun u j v e => h (i :: u) j v (by rw [e]; rfl)
    cases i with
    | switch =>
      have : b = false := by
        cases b with
        | false => rfl
        | true => exact absurd rfl (hb rfl)
      subst this
      show Item.switch :: survivors false l = _
      rw [ih false (by simp) ht]
    | token n g k s cl =>
      show _ :: survivors _ l = _
      rw [ih _ ?_ ht]
      intro hbare hh
      cases l with
      | nil => simp at hh
      | cons j l => simp at hh; subst hh; have := h [] _ l rfl; rw [this] at hbare; cases hbare
    | rule n g k =>
      show _ :: survivors _ l = _
      rw [ih _ ?_ ht]
      intro hbare hh
      cases l with
      | nil => simp at hh
      | cons j l => simp at hh; subst hh; have := h [] _ l rfl; rw [this] at hbare; cases hbare

/-- C83: if no channel switch stands behind an element of which only the name is written, all the items of a line are read. -/
theorem C83_lines_complete (rules : RuleSet) (x : LineT × Str) (l : GLine) (h : LineShows rules x l)
    (hno : ∀ u i v, x.1.map Prod.snd = u ++ i :: .switch :: v → i.bare = false) :
    List.Forall₂ (Shows rules) (x.1.map Prod.snd) l := by
  unfold LineShows at h
  rw [survivors_all _ _ (by simp) hno] at h
  exact h

/-- An instruction without its code. -/
def strip : GInstr → Option (GContent × Option Card)
  | .element e => some (e.content, e.card)
  | .channelSwitch => none

theorem specShows_det {rules : RuleSet} {s : SpecT} {g g' : GSpec} (h : SpecShows rules s g) (h' : SpecShows rules s g') : g = g' := by
  obtain ⟨a1, a2, a3⟩ := h
  obtain ⟨b1, b2, b3⟩ := h'
  have hc : g.content = g'.content := by
    cases hb : s.isRule with
    | false => rw [a2 hb, b2 hb]
    | true =>
      obtain ⟨r, r1, r2⟩ := a3 hb
      obtain ⟨r', r1', r2'⟩ := b3 hb
      rw [r1] at r1'
      simp at r1'
      rw [r2, r2', r1']
  cases g; cases g'
  simp_all

theorem specs_det {rules : RuleSet} {l : List SpecT} {g g' : List GSpec} (h : List.Forall₂ (SpecShows rules) l g) (h' : List.Forall₂ (SpecShows rules) l g') : g = g' := by
  induction h generalizing g' with
  | nil => cases h'; rfl
  | cons hx _ ih =>
    cases h' with
    | cons hy hr => rw [specShows_det hx hy, ih hr]

theorem shows_det {rules : RuleSet} {i : Item} {g g' : GInstr} (h : Shows rules i g) (h' : Shows rules i g') : strip g = strip g' := by
  cases i with
  | token n gap k s cl =>
    cases g with
    | channelSwitch => exact absurd h (by simp [Shows])
    | element e =>
      cases g' with
      | channelSwitch => exact absurd h' (by simp [Shows])
      | element e' =>
        obtain ⟨⟨gs, h1, h2⟩, h3, _⟩ := h
        obtain ⟨⟨gs', h1', h2'⟩, h3', _⟩ := h'
        simp only [strip, h1, h1', h3, h3', specs_det h2 h2']
  | rule n gap k =>
    cases g with
    | channelSwitch => exact absurd h (by simp [Shows])
    | element e =>
      cases g' with
      | channelSwitch => exact absurd h' (by simp [Shows])
      | element e' =>
        obtain ⟨⟨r, h1, h2⟩, h3, _⟩ := h
        obtain ⟨⟨r', h1', h2'⟩, h3', _⟩ := h'
        rw [h1] at h1'; simp at h1'
        simp only [strip, h2, h2', h3, h3', h1']
  | switch =>
    cases g with
    | element e => exact absurd h (by simp [Shows])
    | channelSwitch =>
      cases g' with
      | element e => exact absurd h' (by simp [Shows])
      | channelSwitch => rfl

theorem line_det {rules : RuleSet} {l : List Item} {o o' : GLine} (h : List.Forall₂ (Shows rules) l o) (h' : List.Forall₂ (Shows rules) l o') : o.map strip = o'.map strip := by
  induction h generalizing o' with
  | nil => cases h'; rfl
  | cons hx _ ih =>
    cases h' with
    | cons hy hr => rw [List.map_cons, List.map_cons, shows_det hx hy, ih hr]

theorem survivors_drop {a b : List Item} {i : Item} (hi : i.bare = true) (hb : b.head? ≠ some .switch) (f : Bool) :
    survivors f (a ++ i :: .switch :: b) = survivors f (a ++ i :: b) := by
  induction a generalizing f with
  | nil =>
    have hi' : survivors true b = survivors false b := by
      cases b with
      | nil => rfl
      | cons j b => cases j with
        | switch => exact absurd rfl hb
        | token => rfl
        | rule => rfl
    cases i with
    | switch => simp [Item.bare] at hi
    | token n g k s cl =>
      show _ :: survivors _ (Item.switch :: b) = _ :: survivors _ b
      rw [hi, hi']; rfl
    | rule n g k =>
      show _ :: survivors _ (Item.switch :: b) = _ :: survivors _ b
      rw [hi, hi']; rfl
  | cons x a ih =>
    cases x with
    | switch =>
      show (if f then survivors false (a ++ i :: .switch :: b) else .switch :: survivors false (a ++ i :: .switch :: b)) = _
      rw [ih]; rfl
    | token n g k s cl =>
      show _ :: survivors _ (a ++ i :: .switch :: b) = _
      rw [ih]; rfl
    | rule n g k =>
      show _ :: survivors _ (a ++ i :: .switch :: b) = _
      rw [ih]; rfl

/-- C84 (violation): a channel switch right behind an element of which only the name is written should be read, but is lost: in every
line it can be left out and the elements and switches read are the same. -/
theorem C84_switch_lost (rules : RuleSet) (a b : LineT) (sp sp' w : Str) (i : Item) (hi : i.bare = true)
    (hb : (b.map Prod.snd).head? ≠ some .switch)
    (h : (a ++ (sp, i) :: (sp', .switch) :: b).Ok rules) (h' : (a ++ (sp, i) :: b).Ok rules) (hw : Blank w) :
    ∃ o o', line rules (lineText (a ++ (sp, i) :: (sp', .switch) :: b) ++ w) = .ok o ∧
      line rules (lineText (a ++ (sp, i) :: b) ++ w) = .ok o' ∧ o.map strip = o'.map strip := by
  obtain ⟨o, h1, h2⟩ := line_text h hw
  obtain ⟨o', h1', h2'⟩ := line_text h' hw
  refine ⟨o, o', h1, h1', ?_⟩
  unfold LineShows at h2 h2'
  simp only [List.map_append, List.map_cons] at h2 h2'
  rw [survivors_drop hi hb] at h2
  exact line_det h2 h2'

/-- C84 (violation): `name #` is read as the element alone, whatever the name and the blanks. With a cardinality the switch is read. -/
theorem C84_switch_lost_single (rules : RuleSet) (n b : Str) (hn : TokenName n) (hb : Blank b) (hne : b ≠ []) :
    (∃ e, line rules (n ++ b ++ lit "#") = .ok [.element e] ∧ e.content = .token n [] ∧ e.card = none) ∧
    ∃ e, line rules (n ++ lit "+" ++ b ++ lit "#") = .ok [.element e, .channelSwitch] ∧ e.content = .token n [] ∧ e.card = some .nonZeroMultiple := by
  have hnb : Blank [] := by intro c hc; simp at hc
  constructor
  · have hok : LineT.Ok rules [([], .token n [] none [] []), (b, .switch)] := by
      refine ⟨by simp, ?_, by simpa using hne⟩
      intro x hx
      simp only [List.mem_cons, List.not_mem_nil, or_false] at hx
      rcases hx with rfl | rfl
      · exact ⟨hnb, hn, hnb, hnb, ⟨by simp, by simp⟩, by simp⟩
      · exact ⟨hb, trivial⟩
    obtain ⟨o, h1, h2⟩ := line_text hok hnb
    have e : lineText [([], Item.token n [] none [] []), (b, .switch)] ++ [] = n ++ b ++ lit "#" := by
      simp [lineText, Item.text, cardText, specsText]
    rw [e] at h1
    cases h2 with
    | cons hx hr =>
      cases hr
      rename_i g
      cases g with
      | channelSwitch => exact absurd hx (by simp [Shows])
      | element el =>
        obtain ⟨⟨gs, q1, q2⟩, q3, _⟩ := hx
        cases q2
        exact ⟨el, h1, q1, q3⟩
  · have hok : LineT.Ok rules [([], .token n [] (some .nonZeroMultiple) [] []), (b, .switch)] := by
      refine ⟨by simp, ?_, by simpa using hne⟩
      intro x hx
      simp only [List.mem_cons, List.not_mem_nil, or_false] at hx
      rcases hx with rfl | rfl
      · exact ⟨hnb, hn, hnb, hnb, ⟨by simp, by simp [SpecNumbersFit]⟩, by simp⟩
      · exact ⟨hb, trivial⟩
    obtain ⟨o, h1, h2⟩ := line_text hok hnb
    have e : lineText [([], Item.token n [] (some .nonZeroMultiple) [] []), (b, .switch)] ++ [] = n ++ lit "+" ++ b ++ lit "#" := by
      have : ¬ lit "+" = [] := by decide
      simp [lineText, Item.text, cardText, specsText, this]
    rw [e] at h1
    unfold LineShows at h2
    have hs : survivors false ([([], Item.token n [] (some .nonZeroMultiple) [] []), (b, .switch)].map Prod.snd) =
        [.token n [] (some .nonZeroMultiple) [] [], .switch] := by
      simp [survivors, Item.bare, cardText, show ¬ lit "+" = [] by decide]
    rw [hs] at h2
    cases h2 with
    | cons hx hr =>
      cases hr with
      | cons hy hz =>
        cases hz
        rename_i g g'
        cases g' with
        | element el => exact absurd hy (by simp [Shows])
        | channelSwitch =>
          cases g with
          | channelSwitch => exact absurd hx (by simp [Shows])
          | element el =>
            obtain ⟨⟨gs, q1, q2⟩, q3, _⟩ := hx
            cases q2
            exact ⟨el, h1, q1, q3⟩

theorem specOf_no_panic (rules : RuleSet) (m : M) : specOf rules m ≠ .panic := by
  unfold specOf
  refine bind_no_panic ?_ (fun c _ => bind_no_panic ?_ (fun c' _ => bind_no_panic ?_ (fun k _ => ?_)))
  · split
    · refine map_no_panic ?_; unfold gspecContentNow; simp; split <;> simp
    · simp
  · split
    · refine bind_no_panic (goFind_no_panic _ _) (fun r _ => map_no_panic ?_)
      simp [gspecContentNow]
    · simp
  · split
    · refine map_no_panic ?_
      obtain ⟨u, _, h⟩ := toSpecific_trimmed _ (trimSpace_idem (m.group 4))
      rw [h]; exact parseSpecific_no_panic u
    · simp
  · unfold gspecNow
    split
    · simp
    · split <;> simp

theorem element_no_panic (c : GContent) (n : Nat) (m : M) : buildElement c n m ≠ .panic := by
  unfold buildElement
  refine bind_no_panic ?_ (fun k _ => ?_)
  · split
    · exact map_no_panic (C31_parse_no_panic _)
    · simp
  · unfold gelementNow; simp only; split <;> simp

theorem instrOf_no_panic (rules : RuleSet) (m : M) : instrOf rules m ≠ .panic := by
  have hi : ∀ b e, ginstrNow b e ≠ .panic := by intro b e; unfold ginstrNow; split <;> [simp; (split <;> simp)]
  unfold instrOf
  refine bind_no_panic ?_ (fun a _ => bind_no_panic ?_ (fun b _ => bind_no_panic ?_ (fun c _ => by simp)))
  · split
    · exact bind_no_panic (hi _ _) (fun _ _ => by simp)
    · simp
  · split
    · refine bind_no_panic ?_ (fun e _ => bind_no_panic (hi _ _) (fun _ _ => by simp))
      unfold tokenElement
      refine bind_no_panic ?_ (fun s _ => bind_no_panic ?_ (fun c _ => element_no_panic _ _ _))
      · unfold tokenSpecifiers
        simp only
        split
        · simp
        · refine bind_no_panic (mapOut_no_panic (fun x _ => specOf_no_panic rules x)) (fun l _ => ?_)
          split <;> simp
      · unfold gtokenRefNow
        split
        · simp
        · split <;> simp
    · simp
  · split
    · refine bind_no_panic ?_ (fun e _ => bind_no_panic (hi _ _) (fun _ _ => by simp))
      unfold tokenRuleElement
      exact bind_no_panic (goFind_no_panic _ _) (fun r _ => element_no_panic _ _ _)
    · simp

theorem lines_no_panic (rules : RuleSet) (s : Str) : lines rules s ≠ .panic := by
  have hne : ∀ {α : Type} (l : List α), gnonEmptyNow l ≠ .panic := by intro α l; unfold gnonEmptyNow; split <;> simp
  unfold lines
  refine bind_no_panic (mapOut_no_panic (fun x _ => ?_)) (fun l _ => hne l)
  unfold line instructions
  exact bind_no_panic (bind_no_panic (mapOut_no_panic (fun y _ => instrOf_no_panic rules y)) (fun _ _ => by simp)) (fun l _ => hne l)

/-- C85: reading tokens never panics, whatever the text and the rules: the result is the tokens or an error. -/
theorem C85_tokens_no_panic (rules : RuleSet) (content : Str) : toTokens rules content ≠ .panic := by
  unfold toTokens
  refine bind_no_panic (mapOut_no_panic (fun m _ => ?_)) (fun l _ => (C38_unique_iff (name := GToken.name) l).2)
  unfold tokenOf
  refine bind_no_panic ?_ (fun x _ => bind_no_panic ?_ (fun y _ => ?_))
  · unfold testSuite
    cases hs : splitSep plusC [plusC, plusC] (m.group 3) with
    | nil => exact absurd hs splitSep_ne_nil
    | cons a l =>
      cases l with
      | nil => simp
      | cons b l =>
        simp only
        cases ht : trimSpace b with
        | nil => simp
        | cons c t =>
          simp only
          split
          · refine bind_no_panic ?_ (fun _ _ => by simp)
            unfold gnonEmptyNow; split <;> simp
          · simp
  · unfold block
    cases hs : splitSep dashC [dashC, dashC] x.2 with
    | nil => exact absurd hs splitSep_ne_nil
    | cons a l =>
      cases l with
      | nil => exact bind_no_panic (lines_no_panic rules a) (fun _ _ => by simp)
      | cons b l =>
        simp only
        refine bind_no_panic (lines_no_panic rules a) (fun must _ => ?_)
        cases ht : trimSpace b with
        | nil => simp
        | cons c t =>
          simp only
          split
          · exact bind_no_panic (lines_no_panic rules t) (fun _ _ => by simp)
          · simp
  · unfold gtokenNow; simp only; split <;> simp

/-! A concrete text meets the hypotheses. -/

/-- A rule and a grammar to show that the theorems are about something. -/
def exRule : Rule := ⟨lit "A", lit "A: \"a\";", .constant (lit "a"), lit "\"a\""⟩
def exRules : RuleSet := ⟨[exRule], GoMap.empty.set (lit "A") exRule⟩
def exToken : TokenT :=
  ⟨[], lit "main", lit " ",
    [([(lit " ", .token (lit "sub") [] (some .nonZeroMultiple) [⟨[], true, lit "A", [], .amount 2⟩] (lit " ")), (lit " ", .rule (lit "A") (lit " ") (some (.specific (.amount 2))))], lit " "),
     ([(lit " ", .switch), (lit " ", .rule (lit "A") [] none)], lit "\n")],
    some ⟨[], [([(lit " ", .token (lit "x") [] none [] [])], lit "\n")]⟩,
    some ⟨[], [lit " aa"], lit " "⟩⟩

theorem exToken_text : exToken.text = lit "main : sub+->A{2} <- A {2} | # A\n---: x\n+++: aa### ;" := by decide

theorem exToken_ok : exToken.Ok exRules := by
  have hb : ∀ w ∈ [lit "", lit " ", lit "\n"], Blank w := by unfold Blank; decide
  have hA : RuleName (lit "A") ∧ ∃ r, exRules.find (lit "A") = .ok r :=
    ⟨⟨by decide, by unfold UpperLetter; decide⟩, exRule, by rfl⟩
  refine ⟨hb _ (by decide), ⟨109, lit "ain", by decide, by unfold LowerLetter; decide, by unfold LowerLetter UpperLetter; decide⟩, hb _ (by decide), ?_, ?_, ?_⟩
  · refine ⟨by simp [exToken], ?_⟩
    intro x hx
    simp only [exToken, List.mem_cons, List.not_mem_nil, or_false] at hx
    rcases hx with rfl | rfl
    · refine ⟨⟨by simp, ?_, by decide⟩, hb _ (by decide)⟩
      intro y hy
      simp only [List.mem_cons, List.not_mem_nil, or_false] at hy
      rcases hy with rfl | rfl
      · refine ⟨hb _ (by decide), ⟨115, lit "ub", by decide, by unfold LowerLetter; decide, by unfold LowerLetter UpperLetter; decide⟩, hb _ (by decide), hb _ (by decide),
          ⟨by simp, by simp [SpecNumbersFit]⟩, ?_⟩
        intro s hs
        simp only [List.mem_cons, List.not_mem_nil, or_false] at hs
        subst hs
        exact ⟨hb _ (by decide), hb _ (by decide), by simp [SpecNumbersFit], by simp, fun _ => hA⟩
      · exact ⟨hb _ (by decide), hA.1, hb _ (by decide), ⟨by simp, by simp [SpecNumbersFit]⟩, hA.2⟩
    · refine ⟨⟨by simp, ?_, by decide⟩, hb _ (by decide)⟩
      intro y hy
      simp only [List.mem_cons, List.not_mem_nil, or_false] at hy
      rcases hy with rfl | rfl
      · exact ⟨hb _ (by decide), trivial⟩
      · exact ⟨hb _ (by decide), hA.1, hb _ (by decide), ⟨by simp, by simp⟩, hA.2⟩
  · intro n hn
    simp only [exToken, Option.some.injEq] at hn
    subst hn
    refine ⟨hb _ (by decide), ⟨by simp, ?_⟩, ?_⟩
    · intro x hx
      simp only [List.mem_cons, List.not_mem_nil, or_false] at hx
      subst hx
      refine ⟨⟨by simp, ?_, by simp⟩, hb _ (by decide)⟩
      intro y hy
      simp only [List.mem_cons, List.not_mem_nil, or_false] at hy
      subst hy
      exact ⟨hb _ (by decide), ⟨120, [], by decide, by unfold LowerLetter; decide, by simp⟩, hb _ (by decide), hb _ (by decide), ⟨by simp, by simp⟩, by simp⟩
    · intro x hx
      simp [exToken] at hx
      subst hx
      decide
  · intro s hs
    simp only [exToken, Option.some.injEq] at hs
    subst hs
    refine ⟨hb _ (by decide), hb _ (by decide), by simp, ?_, by simp [exToken], ?_⟩
    · intro x hx
      simp only [List.mem_cons, List.not_mem_nil, or_false] at hx
      subst hx
      exact ⟨by decide, by decide, by decide, by decide⟩
    · intro n hn
      simp only [exToken, Option.some.injEq] at hn
      subst hn
      intro x hx
      simp at hx
      subst hx
      decide

example : ∃ set, toTokens exRules (lit "main : sub+->A{2} <- A {2} | # A\n---: x\n+++: aa### ;\n") = .ok set ∧
    List.Forall₂ (TokenShows exRules) [exToken] set.list := by
  obtain ⟨set, h1, h2, _⟩ := (C83_tokens_read exRules [exToken] (lit "\n") (by intro t ht; simp at ht; subst ht; exact exToken_ok)
    (by unfold Blank; decide)).1 ⟨by simp, by simp⟩
  refine ⟨set, ?_, h2⟩
  rw [← h1, show tokensText [exToken] = exToken.text by simp [tokensText], exToken_text]
  congr 1

/-- The line of the shipped token `stringValue` (`scripts/resources/base/tokens.alex:782`): of its two channel switches only the first is read. -/
theorem C84_shipped_switch (rules : RuleSet) (q e : Rule) (hq : rules.find (lit "QUOTATION") = .ok q)
    (he : rules.find (lit "EVERYTHING_EXCEPT_QUOTATION") = .ok e) :
    ∃ o, line rules (lit " # QUOTATION EVERYTHING_EXCEPT_QUOTATION QUOTATION #\n    ") = .ok o ∧
      o.map strip = [none, some (.rule q, none), some (.rule e, none), some (.rule q, none)] := by
  have hb : ∀ w ∈ [lit "", lit " ", lit "\n    "], Blank w := by unfold Blank; decide
  have hQ : RuleName (lit "QUOTATION") := ⟨by decide, by unfold UpperLetter; decide⟩
  have hE : RuleName (lit "EVERYTHING_EXCEPT_QUOTATION") := ⟨by decide, by unfold UpperLetter; decide⟩
  have hok : LineT.Ok rules [(lit " ", .switch), (lit " ", .rule (lit "QUOTATION") [] none), (lit " ", .rule (lit "EVERYTHING_EXCEPT_QUOTATION") [] none),
      (lit " ", .rule (lit "QUOTATION") [] none), (lit " ", .switch)] := by
    refine ⟨by simp, ?_, by decide⟩
    intro x hx
    simp only [List.mem_cons, List.not_mem_nil, or_false] at hx
    rcases hx with rfl | rfl | rfl | rfl | rfl
    · exact ⟨hb _ (by decide), trivial⟩
    · exact ⟨hb _ (by decide), hQ, hb _ (by decide), ⟨by simp, by simp⟩, q, hq⟩
    · exact ⟨hb _ (by decide), hE, hb _ (by decide), ⟨by simp, by simp⟩, e, he⟩
    · exact ⟨hb _ (by decide), hQ, hb _ (by decide), ⟨by simp, by simp⟩, q, hq⟩
    · exact ⟨hb _ (by decide), trivial⟩
  obtain ⟨o, h1, h2⟩ := line_text hok (hb (lit "\n    ") (by decide))
  refine ⟨o, ?_, ?_⟩
  · rw [← h1]; congr 1
  · have hd : List.Forall₂ (Shows rules) (survivors false ([(lit " ", Item.switch), (lit " ", .rule (lit "QUOTATION") [] none), (lit " ", .rule (lit "EVERYTHING_EXCEPT_QUOTATION") [] none),
        (lit " ", .rule (lit "QUOTATION") [] none), (lit " ", .switch)].map Prod.snd))
        [.channelSwitch, .element ⟨.rule q, lit "QUOTATION", none⟩, .element ⟨.rule e, lit "EVERYTHING_EXCEPT_QUOTATION", none⟩, .element ⟨.rule q, lit "QUOTATION", none⟩] := by
      have hsv : survivors false ([(lit " ", Item.switch), (lit " ", .rule (lit "QUOTATION") [] none), (lit " ", .rule (lit "EVERYTHING_EXCEPT_QUOTATION") [] none),
        (lit " ", .rule (lit "QUOTATION") [] none), (lit " ", .switch)].map Prod.snd) =
        [.switch, .rule (lit "QUOTATION") [] none, .rule (lit "EVERYTHING_EXCEPT_QUOTATION") [] none, .rule (lit "QUOTATION") [] none] := by
        simp [survivors, Item.bare, cardText]
      rw [hsv]
      have hsh : ∀ n r, rules.find n = .ok r → Shows rules (.rule n [] none) (.element ⟨.rule r, n, none⟩) := by
        intro n r hr
        exact ⟨⟨r, hr, rfl⟩, rfl, [], by intro c hc; simp at hc, by simp [Item.text, cardText]⟩
      exact .cons trivial (.cons (hsh _ _ hq) (.cons (hsh _ _ he) (.cons (hsh _ _ hq) .nil)))
    exact line_det h2 hd

end Verif.Text
