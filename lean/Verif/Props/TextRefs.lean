import Verif.Lemmas.TextRefs4

/-!
# Properties C100–C102: the texts of the references of a grammar
-/

set_option maxRecDepth 10000

namespace Verif.Text
open Verif.Regex Verif.Patterns Verif.Lexer

/-- C100: the includes, references and replacements are read as they are written, wherever they stand in the text of the tokens: every link has the
names which are written and the paths of the last include of its name; a link to an include which is written nowhere in the text gives an error. -/
theorem C100_references_read (lead : Str) (l : StmtsT) (hl : LeadT lead) (h : l.Ok) (hf : IncludesFine l) :
    ((∀ w ∈ refsOf l ++ replsOf l, Declared l w.1) → ∃ r, toReferences (lead ++ stmtsText l) = .ok r ∧
      LinksShow l (refsOf l) r.references ∧ LinksShow l (replsOf l) r.replacements) ∧
    (¬ (∀ w ∈ refsOf l ++ replsOf l, Declared l w.1) → toReferences (lead ++ stmtsText l) = .err) := by
  obtain ⟨inc, hinc, hall⟩ := incLoop_fine l GoMap.empty h hf
  have e := toReferences_eq (dot := 46) hl h (by decide) (by decide)
  rw [hinc, Out.bind_ok] at e
  obtain ⟨n1, n2⟩ := links_names h
  constructor
  · intro hd
    obtain ⟨rs, e1, f1⟩ := links_ok (l := l) (inc := inc) n1 (fun w hw => (hall w.1).2 (hd w (List.mem_append_left _ hw)))
    obtain ⟨ps, e2, f2⟩ := links_ok (l := l) (inc := inc) n2 (fun w hw => (hall w.1).2 (hd w (List.mem_append_right _ hw)))
    rw [e1, Out.bind_ok, e2, Out.bind_ok] at e
    refine ⟨_, e, ?_, ?_⟩
    · by_cases hr : rs = []
      · simp only [hr, if_true, LinksShow]
        rw [hr] at f1; exact List.forall₂_nil_right_iff.1 f1
      · simp only [hr, if_false, LinksShow]
        refine ⟨?_, f1⟩
        intro h0
        rw [h0] at f1; exact hr (List.forall₂_nil_left_iff.1 f1)
    · by_cases hr : ps = []
      · simp only [hr, if_true, LinksShow]
        rw [hr] at f2; exact List.forall₂_nil_right_iff.1 f2
      · simp only [hr, if_false, LinksShow]
        refine ⟨?_, f2⟩
        intro h0
        rw [h0] at f2; exact hr (List.forall₂_nil_left_iff.1 f2)
  · intro hd
    simp only [not_forall] at hd
    obtain ⟨w, hw, hn⟩ := hd
    have hnone : inc w.1 = none := (hall w.1).1 hn
    show toReferences (lead ++ stmtsTextWith 46 l) = .err
    rw [e]
    rcases List.mem_append.mp hw with hw | hw
    · rw [links_err ⟨w, hw, hnone⟩]; rfl
    · rw [links_err (ws := replsOf l) ⟨w, hw, hnone⟩]
      cases h1 : mapOut (fun w => linkNow inc w.1 w.2.1 w.2.2) (refsOf l) with
      | panic => exact absurd h1 (links_no_panic _)
      | err => rfl
      | ok x => rfl

/-- A text to show that the theorem is about something: two includes of the same name, the reference in front of them. -/
def exStmts : StmtsT :=
  [(.refr (lit " ") (lit "mine") (lit "\t") (lit "inc") (lit "theirs"), lit "\n"),
   (.incl (lit " ") (lit "inc") (lit " ") [lit "a.rules", lit "a.tokens"], lit "\nfirst: X; \n"),
   (.incl (lit " ") (lit "inc") [] [lit "b.rules", lit "b.tokens", lit "b.channels"], lit "\n\n"),
   (.repl (lit " ") (lit "inc") (lit "old") (lit "  ") (lit "first"), lit " ")]

theorem exStmts_text : lit "# \n" ++ stmtsText exStmts =
    lit "# \nreference mine\tinc.theirs\ninclude inc \"a.rules;a.tokens\"\nfirst: X; \ninclude inc\"b.rules;b.tokens;b.channels\"\n\nreplace inc.old  first " := by decide

theorem noKeyword_of {t : Str} (h : (hasWord (lit "include") t || hasWord (lit "reference") t || hasWord (lit "replace") t) = false) : NoKeyword t := by
  simp only [Bool.or_eq_false_iff] at h
  refine ⟨?_, ?_, ?_⟩ <;> rw [hasWord_iff] <;> simp [h]

theorem exName {n : Str} (c : UInt8) (u : Str) (e : n = c :: u) (h : (lower c && u.all letter) = true)
    (k : (hasWord (lit "include") n || hasWord (lit "reference") n || hasWord (lit "replace") n) = false) : Name n := by
  simp only [Bool.and_eq_true, List.all_eq_true] at h
  exact ⟨⟨c, u, e, lower_iff.1 h.1, fun d hd => letter_iff.1 (h.2 d hd)⟩, noKeyword_of k⟩

theorem exStmts_ok : exStmts.Ok := by
  have hb : ∀ w ∈ [lit "", lit " ", lit "\t", lit "  ", lit "\n"], Blank w := by unfold Blank; decide
  have n1 : Name (lit "mine") := exName 109 (lit "ine") (by decide) (by decide) (by decide)
  have n2 : Name (lit "inc") := exName 105 (lit "nc") (by decide) (by decide) (by decide)
  have n3 : Name (lit "theirs") := exName 116 (lit "heirs") (by decide) (by decide) (by decide)
  have n4 : Name (lit "old") := exName 111 (lit "ld") (by decide) (by decide) (by decide)
  have n5 : Name (lit "first") := exName 102 (lit "irst") (by decide) (by decide) (by decide)
  have b0 : Blank (lit " ") := hb _ (by decide)
  have b1 : Blank (lit "\t") := hb _ (by decide)
  have b2 : Blank (lit "  ") := hb _ (by decide)
  have gap : ∀ g : Str, (hasWord (lit "include") g || hasWord (lit "reference") g || hasWord (lit "replace") g) = false →
      ∀ a b, g.head? = some a → g.getLast? = some b → Blank [a] → Blank [b] → GapT g :=
    fun g h a b ha hb ka kb => ⟨noKeyword_of h, ⟨a, ha, ka⟩, b, hb, kb⟩
  intro x hx
  simp only [exStmts, List.mem_cons, List.not_mem_nil, or_false] at hx
  rcases hx with rfl | rfl | rfl | rfl
  · exact ⟨⟨b0, by decide, n1, b1, by decide, n2, n3⟩, gap _ (by decide) 10 10 rfl rfl (by simp [Blank]) (by simp [Blank])⟩
  · refine ⟨⟨b0, by decide, n2, b0, by decide, ?_⟩, gap _ (by decide) 10 10 rfl (by decide) (by simp [Blank]) (by simp [Blank])⟩
    intro p hp
    simp only [List.mem_cons, List.not_mem_nil, or_false] at hp
    rcases hp with rfl | rfl <;> exact ⟨by decide, by decide, noKeyword_of (by decide)⟩
  · refine ⟨⟨b0, by decide, n2, by simp [Blank], by decide, ?_⟩, gap _ (by decide) 10 10 rfl (by decide) (by simp [Blank]) (by simp [Blank])⟩
    intro p hp
    simp only [List.mem_cons, List.not_mem_nil, or_false] at hp
    rcases hp with rfl | rfl | rfl <;> exact ⟨by decide, by decide, noKeyword_of (by decide)⟩
  · exact ⟨⟨b0, by decide, n2, n4, b2, by decide, n5⟩, gap _ (by decide) 32 32 rfl rfl (by simp [Blank]) (by simp [Blank])⟩

theorem exStmts_fine : IncludesFine exStmts := by
  intro x hx g1 n g2 ps e
  simp only [exStmts, List.mem_cons, List.not_mem_nil, or_false] at hx
  rcases hx with rfl | rfl | rfl | rfl
  · simp at e
  · simp only [StmtT.incl.injEq] at e
    obtain ⟨_, _, _, rfl⟩ := e
    exact ⟨_, _, _, rfl, by decide, by decide, by decide⟩
  · simp only [StmtT.incl.injEq] at e
    obtain ⟨_, _, _, rfl⟩ := e
    exact ⟨_, _, _, rfl, by decide, by decide, by decide⟩
  · simp at e

theorem exLead : LeadT (lit "# \n") := ⟨noKeyword_of (by decide), by
  intro c hc
  have : c = 10 := by
    have h2 : (lit "# \n").getLast? = some 10 := by decide
    rw [h2] at hc; cases hc; rfl
  subst this
  simp [Blank]⟩

example : ∃ r, toReferences (lit "# \n" ++ stmtsText exStmts) = .ok r ∧ LinksShow exStmts (refsOf exStmts) r.references ∧
    LinksShow exStmts (replsOf exStmts) r.replacements := by
  refine (C100_references_read _ exStmts exLead exStmts_ok exStmts_fine).1 ?_
  intro w hw
  have : w.1 = lit "inc" := by
    revert w; decide
  rw [this]
  exact ⟨_, List.mem_cons_of_mem _ List.mem_cons_self, _, _, _, rfl⟩

/-- C101: an include with more than three paths, or with an empty path of rules or tokens, is an error. -/
theorem C101_include_rejected (lead : Str) (a b : StmtsT) (g1 n g2 g : Str) (ps : List Str) (hl : LeadT lead)
    (h : StmtsT.Ok (a ++ (.incl g1 n g2 ps, g) :: b)) (ha : IncludesFine a)
    (hbad : 3 < ps.length ∨ (2 ≤ ps.length ∧ (ps[0]? = some [] ∨ ps[1]? = some []))) :
    toReferences (lead ++ stmtsText (a ++ (.incl g1 n g2 ps, g) :: b)) = .err := by
  have e := toReferences_eq (dot := 46) hl h (by decide) (by decide)
  obtain ⟨⟨a1, a2, a3, a4, a5, a6⟩, _⟩ := h (.incl g1 n g2 ps, g) (by simp)
  obtain ⟨m, hm, _⟩ := incLoop_fine a GoMap.empty (fun x hx => h x (by simp [hx])) ha
  have hi : incOf (n, withSemicolons ps) = .err := by
    rw [incOf_stmt (tokenName_ne a3.1) a5 (fun p hp => (a6 p hp).2.1)]
    split
    · rfl
    · rename_i hn
      rcases hbad with hb | ⟨h2, hb⟩
      · exact absurd hb hn
      · cases ps with
        | nil => exact absurd rfl a5
        | cons r ps =>
          cases ps with
          | nil => simp at h2
          | cons t o =>
            simp only [List.getElem?_cons_zero, List.getElem?_cons_succ, Option.some.injEq] at hb
            rcases hb with rfl | rfl
            · simp
            · by_cases hr : r = [] <;> simp [hr]
  have hloop : incLoop ((a ++ (.incl g1 n g2 ps, g) :: b).filterMap (fun x => inclKind x.1)) GoMap.empty = .err := by
    rw [List.filterMap_append, incLoop_append, hm, Out.bind_ok, List.filterMap_cons_some (b := (n, withSemicolons ps)) (by rfl)]
    simp only [incLoop, hi]; rfl
  show toReferences (lead ++ stmtsTextWith 46 _) = .err
  rw [e, hloop]; rfl

/-- C101 (violation): an include with one path should be an error too, but reading it panics, whatever else stands in the text. -/
theorem C101_one_path_violation (lead : Str) (a b : StmtsT) (g1 n g2 g p : Str) (hl : LeadT lead)
    (h : StmtsT.Ok (a ++ (.incl g1 n g2 [p], g) :: b)) (ha : IncludesFine a) :
    toReferences (lead ++ stmtsText (a ++ (.incl g1 n g2 [p], g) :: b)) = .panic := by
  have e := toReferences_eq (dot := 46) hl h (by decide) (by decide)
  obtain ⟨⟨a1, a2, a3, a4, a5, a6⟩, _⟩ := h (.incl g1 n g2 [p], g) (by simp)
  obtain ⟨m, hm, _⟩ := incLoop_fine a GoMap.empty (fun x hx => h x (by simp [hx])) ha
  have hi : incOf (n, withSemicolons [p]) = .panic := by
    rw [incOf_stmt (tokenName_ne a3.1) a5 (fun q hq => (a6 q hq).2.1)]
    simp
  have hloop : incLoop ((a ++ (.incl g1 n g2 [p], g) :: b).filterMap (fun x => inclKind x.1)) GoMap.empty = .panic := by
    rw [List.filterMap_append, incLoop_append, hm, Out.bind_ok, List.filterMap_cons_some (b := (n, withSemicolons [p])) (by rfl)]
    simp only [incLoop, hi]; rfl
  show toReferences (lead ++ stmtsTextWith 46 _) = .panic
  rw [e, hloop]; rfl

theorem exInclude (ps : List Str) (hne : ps ≠ []) (h : ∀ p ∈ ps, 34 ∉ p ∧ 59 ∉ p ∧ NoKeyword p) :
    StmtsT.Ok ([] ++ [(.incl (lit " ") (lit "inc") (lit " ") ps, lit " ")]) := by
  have n2 : Name (lit "inc") := exName 105 (lit "nc") (by decide) (by decide) (by decide)
  have b0 : Blank (lit " ") := by unfold Blank; decide
  intro x hx
  simp only [List.nil_append, List.mem_singleton] at hx
  subst hx
  exact ⟨⟨b0, by decide, n2, b0, hne, h⟩, noKeyword_of (t := lit " ") (by decide), ⟨32, rfl, by simp [Blank]⟩, 32, rfl, by simp [Blank]⟩

example : toReferences (lit "include inc \"a;b;c;d\" ") = .err := by
  have := C101_include_rejected [] [] [] (lit " ") (lit "inc") (lit " ") (lit " ") [lit "a", lit "b", lit "c", lit "d"] ⟨noKeyword_of (by decide), by simp⟩
    (exInclude _ (by simp) (by
      intro p hp
      simp only [List.mem_cons, List.not_mem_nil, or_false] at hp
      rcases hp with rfl | rfl | rfl | rfl <;> exact ⟨by decide, by decide, noKeyword_of (by decide)⟩)) (by intro x hx; cases hx) (.inl (by decide))
  rw [← this]; congr 1

example : toReferences (lit "include inc \"a\" ") = .panic := by
  have := C101_one_path_violation [] [] [] (lit " ") (lit "inc") (lit " ") (lit " ") (lit "a") ⟨noKeyword_of (by decide), by simp⟩
    (exInclude _ (by simp) (by
      intro p hp
      simp only [List.mem_cons, List.not_mem_nil, or_false] at hp
      subst hp; exact ⟨by decide, by decide, noKeyword_of (by decide)⟩)) (by intro x hx; cases hx)
  rw [← this]; congr 1

/-- C102 (violation): a link is only written with a dot between the name of the include and its token, but with any other character in its place
(a slash, a colon, a blank: anything but a letter and a line break) the text is read in the same way. -/
theorem C102_dot_violation (lead : Str) (l : StmtsT) (hl : LeadT lead) (h : l.Ok) (c : UInt8) (h1 : ¬ LowerLetter c) (h2 : ¬ UpperLetter c) (h3 : c ≠ 10) :
    toReferences (lead ++ stmtsTextWith c l) = toReferences (lead ++ stmtsText l) := by
  have hc : letter c = false := by
    cases hx : letter c with
    | false => rfl
    | true => rcases letter_iff.1 hx with q | q
              · exact absurd q h1
              · exact absurd q h2
  rw [toReferences_eq hl h h3 hc]
  exact (toReferences_eq (dot := 46) hl h (by decide) (by decide)).symm

example : ∃ r, toReferences (lit "# \n" ++ stmtsTextWith 47 exStmts) = .ok r ∧ LinksShow exStmts (refsOf exStmts) r.references := by
  rw [C102_dot_violation _ exStmts exLead exStmts_ok 47 (by unfold LowerLetter; decide) (by unfold UpperLetter; decide) (by decide)]
  obtain ⟨r, h1, h2, _⟩ := (C100_references_read _ exStmts exLead exStmts_ok exStmts_fine).1 (by
    intro w hw
    have : w.1 = lit "inc" := by revert w; decide
    rw [this]
    exact ⟨_, List.mem_cons_of_mem _ List.mem_cons_self, _, _, _, rfl⟩)
  exact ⟨r, h1, h2⟩

/-- C102 (violation): names may contain any letters, but a name which contains a keyword is read as a statement: this text is written as it
should be and is an error. -/
theorem C102_keyword_violation :
    toReferences (lit "include inc \"a;b\" reference mine inc.theirs ") =
      .ok ⟨some [⟨lit "inc", ⟨lit "a", lit "b"⟩, lit "mine", lit "theirs"⟩], none⟩ ∧
    toReferences (lit "include inc \"a;b\" reference replacement inc.theirs ") = .err := by
  constructor <;> decide +kernel

end Verif.Text
