import Verif.Lemmas.BaseSource
import Verif.Lemmas.BaseClash
import Verif.Lemmas.BaseCheck

/-! # Abstract syntax trees: builders of trees of the grammar, and checkers (used for the examples) -/

namespace Verif.Base
open Verif.Patterns Verif.Lexer

theorem ar_items (name : String) (text : Str) : (ar name text).items = [⟨lit name, text, none⟩] := by
  simp [ar, AMatch.items, AResult.content]

theorem ac_items (t : AToken) : (ac t).items = [⟨t.name, t.discovery, some t⟩] := by
  simp [ac, AMatch.items]

theorem name_confT (cfg : Cfg) (a b : Str) (ha : a ≠ []) (hb : b ≠ []) : ConfT cfg .variableName (nameT a b) := by
  have hi : (nameT a b).items = [⟨lit "FIRST_LETTER", a, none⟩, ⟨lit "MIN_MAJ_LETTERS", b, none⟩] := by
    simp [nameT, at_, AToken.items, ar_items]
  refine .mk (line := [(.rule "FIRST_LETTER", .one), (.rule "MIN_MAJ_LETTERS", .one)]) (by decide +kernel) rfl ?_ ?_ ?_ ?_ ?_ trivial trivial
  · simp [hi, ha, hb, Sym.name]
  · rw [hi]
    intro p hp
    simp only [List.mem_cons, List.not_mem_nil, or_false] at hp
    have h1 : lit "FIRST_LETTER" ≠ lit "MIN_MAJ_LETTERS" := by decide
    rcases hp with rfl | rfl <;> simp [Sym.name, Card.Allows, List.filter_cons, h1, h1.symm]
  · simp [hi]
  · simp
  · simp

/-- A token with one part. -/
theorem chain_confT {cfg : Cfg} (k k' : Kind) {t : AToken} (h : ConfT cfg k' t) (hg : [(Sym.tok k', Card.one)] ∈ grammar k) (hd : t.discovery ≠ []) :
    ConfT cfg k (at_ k [ac t]) := by
  have hn : t.name = k'.name := by cases h with | mk _ h _ _ _ _ _ _ _ => exact h
  have hi : (at_ k [ac t]).items = [⟨k'.name, t.discovery, some t⟩] := by simp [at_, AToken.items, ac_items, hn]
  have hint : texts (at_ k [ac t]) (lit "INT_PATTERN") = [] := by
    have : k'.name ≠ lit "INT_PATTERN" := by cases k' <;> decide
    simp [texts, hi, this]
  have hlits : LiteralsT cfg k (at_ k [ac t]) := by
    cases k <;> first | exact trivial | (simp [LiteralsT, hint])
  have hspec : SpecifierT k (at_ k [ac t]) := by
    cases k <;> first | exact trivial | (exfalso; revert hg; cases k' <;> decide +kernel)
  refine .mk (line := [(.tok k', .one)]) hg rfl ?_ ?_ ?_ ?_ ?_ hlits hspec
  · simp [hi, hd, Sym.name]
  · simp [hi, Sym.name, Card.Allows]
  · simp
  · simp [hi]
  · simp only [List.mem_singleton, Prod.mk.injEq, Sym.tok.injEq, hi]
    rintro k2 card ⟨rfl, rfl⟩ it rfl _ u hu
    simp only [Option.some.injEq] at hu
    exact hu ▸ h

theorem single_confT (cfg : Cfg) (a b : Str) (ha : a ≠ []) (hb : b ≠ []) : ConfT cfg .singleAssignable (singleT a b) := by
  have hd : a ++ b ≠ [] := by simp [ha]
  refine chain_confT _ .operation (chain_confT _ .operationWithSuffix ?_ (by decide +kernel) ?_) (by decide +kernel) ?_
  · have h1 : ConfT cfg .operationElement (at_ .operationElement [ac (nameT a b)]) :=
      chain_confT _ .variableName (name_confT cfg a b ha hb) (by decide +kernel) (by rw [nameT_discovery]; exact hd)
    have hi : (at_ .operationWithSuffix [ac (at_ .operationElement [ac (nameT a b)])]).items =
        [⟨lit "operationElement", a ++ b, some (at_ .operationElement [ac (nameT a b)])⟩] := by
      simp [at_, AToken.items, ac_items, AToken.name]
      exact ⟨rfl, by have := at_discovery .operationElement (nameT a b); rw [nameT_discovery] at this; exact this⟩
    have hne : lit "operationElement" ≠ lit "operationSuffix" := by decide
    refine .mk (line := [(.tok .operationElement, .one), (.tok .operationSuffix, .opt)]) (by decide +kernel) rfl ?_ ?_ ?_ ?_ ?_ trivial trivial
    · simp [hi, ha, Sym.name, Kind.name]
    · simp [hi, Sym.name, Kind.name, Card.Allows, hne]
    · simp
    · simp [hi]
    · simp only [List.mem_cons, List.not_mem_nil, or_false, hi]
      rintro k2 card hk it rfl hn u hu
      simp only [Option.some.injEq] at hu
      have : k2 = .operationElement := name_inj hn.symm
      subst this
      exact hu ▸ h1
  · rw [at_discovery, at_discovery, nameT_discovery]; exact hd
  · rw [at_discovery, at_discovery, at_discovery, nameT_discovery]; exact hd

theorem singleT_discovery (a b : Str) : (singleT a b).discovery = a ++ b := by
  rw [singleT, at_discovery, at_discovery, at_discovery, at_discovery, nameT_discovery]

theorem listT_discovery (a b : Str) : (listT a b).discovery = a ++ b := by rw [listT, at_discovery, nameT_discovery]

/-- `append ab, cd` is a text of the grammar. -/
theorem append_confT (cfg : Cfg) (a b c d : Str) (ha : a ≠ []) (hb : b ≠ []) (hc : c ≠ []) (hd : d ≠ []) :
    ConfT cfg .listAppend (appendT a b c d) := by
  have h1 : ConfT cfg .listValue (listT a b) := chain_confT _ .variableName (name_confT cfg a b ha hb) (by decide +kernel) (by simp [nameT_discovery, ha])
  have h2 := single_confT cfg c d hc hd
  have hi : (appendT a b c d).items = [⟨lit "APPEND", lit "append ", none⟩, ⟨lit "listValue", a ++ b, some (listT a b)⟩, ⟨lit "COMMA", lit ",", none⟩,
      ⟨lit "singleAssignable", c ++ d, some (singleT c d)⟩] := by
    simp only [appendT, at_, AToken.items, List.flatMap_cons, List.flatMap_nil, ar_items, ac_items, listT_discovery, singleT_discovery]
    rfl
  have e : [lit "APPEND", lit "listValue", lit "COMMA", lit "singleAssignable"].Nodup := by decide
  simp only [List.nodup_cons, List.mem_cons, List.not_mem_nil, or_false, not_or] at e
  obtain ⟨⟨e1, e2, e3⟩, ⟨e4, e5⟩, e6, _⟩ := e
  have hne : lit "append " ≠ [] := by decide
  have hne2 : lit "," ≠ [] := by decide
  refine .mk (line := [(.rule "APPEND", .one), (.tok .listValue, .one), (.rule "COMMA", .one), (.tok .singleAssignable, .one)]) (by decide +kernel) rfl
    ?_ ?_ ?_ ?_ ?_ trivial trivial
  · simp [hi, ha, hc, Sym.name, Kind.name, hne, hne2]
  · simp [hi, Sym.name, Kind.name, Card.Allows, List.filter_cons, e1, e2, e3, e4, e5, e6, Ne.symm e1, Ne.symm e2, Ne.symm e3, Ne.symm e4, Ne.symm e5,
      Ne.symm e6]
  · intro s card hp it hit hn
    simp only [List.mem_cons, List.not_mem_nil, or_false, Prod.mk.injEq, Sym.rule.injEq, reduceCtorEq, false_and, false_or] at hp
    rw [hi] at hit
    simp only [List.mem_cons, List.not_mem_nil, or_false] at hit
    rcases hp with ⟨rfl, _⟩ | ⟨rfl, _⟩ <;> rcases hit with rfl | rfl | rfl | rfl <;> first | rfl | (exact absurd hn (by dsimp only; decide))
  · intro k' card hp it hit hn
    simp only [List.mem_cons, List.not_mem_nil, or_false, Prod.mk.injEq, Sym.tok.injEq, reduceCtorEq, false_and, false_or] at hp
    rw [hi] at hit
    simp only [List.mem_cons, List.not_mem_nil, or_false] at hit
    rcases hp with ⟨rfl, _⟩ | ⟨rfl, _⟩ <;> rcases hit with rfl | rfl | rfl | rfl <;> first | (exact absurd hn (by dsimp only; decide)) | (simp)
  · intro k' card hp it hit hn u hu
    simp only [List.mem_cons, List.not_mem_nil, or_false, Prod.mk.injEq, Sym.tok.injEq, reduceCtorEq, false_and, false_or] at hp
    rw [hi] at hit
    simp only [List.mem_cons, List.not_mem_nil, or_false] at hit
    rcases hp with ⟨rfl, _⟩ | ⟨rfl, _⟩ <;> rcases hit with rfl | rfl | rfl | rfl <;>
      first | (exact absurd hn (by dsimp only; decide)) | (simp only [Option.some.injEq] at hu; subst hu; assumption)

/-! ## Checkers -/

def literalsTB (cfg : Cfg) (k : Kind) (t : AToken) : Bool :=
  match k with
  | .intValue => (texts t (lit "INT_PATTERN")).all fun s =>
      if texts t (lit "MINUS") ≠ [] then okOut (parseNeg s cfg.bitSize) else okOut (parseUint s cfg.bitSize)
  | .indexValue => (texts t (lit "INT_PATTERN")).all fun s => okOut (parseUint s cfg.bitSize)
  | .floatValue => match texts t (lit "INT_PATTERN") with
      | [a, b] => okOut (cfg.parseFloat ((if texts t (lit "MINUS") ≠ [] then lit "-" else []) ++ a ++ lit "." ++ b) cfg.bitSize)
      | _ => true
  | _ => true

theorem literalsTB_sound (cfg : Cfg) (k : Kind) (t : AToken) (h : literalsTB cfg k t = true) : LiteralsT cfg k t := by
  cases k <;> try exact trivial
  · intro s hs
    simp only [literalsTB, List.all_eq_true] at h
    exact (okOut_iff _).mp (h s hs)
  · intro s hs
    simp only [literalsTB, List.all_eq_true] at h
    have := h s hs
    split <;> rename_i hm
    · rw [if_pos hm] at this; exact (okOut_iff _).mp this
    · rw [if_neg hm] at this; exact (okOut_iff _).mp this
  · intro a b hab
    simp only [literalsTB, hab] at h
    exact (okOut_iff _).mp h

def specifierTB (k : Kind) (t : AToken) : Bool :=
  match k with
  | .forStatement => t.items.all fun it => it.name ≠ lit "assigneeNames" || (match it.token with
      | some u => u.items.any fun jt => jt.name = lit "commaAssigneeName"
      | none => true)
  | _ => true

theorem specifierTB_sound (k : Kind) (t : AToken) (h : specifierTB k t = true) : SpecifierT k t := by
  cases k <;> try exact trivial
  intro it hit hn u hu
  simp only [specifierTB, List.all_eq_true, Bool.or_eq_true, decide_eq_true_eq] at h
  rcases h it hit with h | h
  · exact absurd hn h
  · simpa [hu] using h

def lineTB (conf : Kind → AToken → Bool) (t : AToken) (line : List (Sym × Card)) : Bool :=
  (t.items.all fun it => it.content ≠ [] && ((line.any fun p => it.name = p.1.name) ||
    (decide (it.name ∈ channelNames) && it.token.isNone))) &&
  (line.all fun p => p.2.allowsB (t.items.filter fun it => it.name = p.1.name).length) &&
  (line.all fun p => t.items.all fun it => it.name ≠ p.1.name || (match p.1, it.token with
    | .rule _, none => true
    | .tok k', some u => conf k' u
    | _, _ => false))

/-- A checker for trees of the grammar. -/
def confTB (cfg : Cfg) : Nat → Kind → AToken → Bool
  | 0, _, _ => false
  | f + 1, k, t => t.name = k.name && (grammar k).any (lineTB (confTB cfg f) t) && literalsTB cfg k t && specifierTB k t

theorem confTB_sound (cfg : Cfg) (f : Nat) : ∀ k t, confTB cfg f k t = true → ConfT cfg k t := by
  induction f with
  | zero => intro k t h; simp [confTB] at h
  | succ f ih =>
    intro k t h
    simp only [confTB, Bool.and_eq_true, decide_eq_true_eq, List.any_eq_true] at h
    obtain ⟨⟨⟨h1, line, h2, h3⟩, h4⟩, h5⟩ := h
    simp only [lineTB, Bool.and_eq_true, List.all_eq_true, decide_eq_true_eq, List.any_eq_true, Bool.or_eq_true, Card.allowsB_iff] at h3
    obtain ⟨⟨h6, h7⟩, h8⟩ := h3
    refine .mk h2 h1 (by simpa only [Option.isNone_iff_eq_none] using h6) h7 ?_ ?_ ?_ (literalsTB_sound cfg k t h4) (specifierTB_sound k t h5)
    · intro s card hp it hit hn
      rcases h8 _ hp it hit with h | h
      · exact absurd hn h
      · cases ht : it.token with
        | none => rfl
        | some u => simp [ht] at h
    · intro k' card hp it hit hn hnone
      rcases h8 _ hp it hit with h | h
      · exact absurd hn h
      · simp [hnone] at h
    · intro k' card hp it hit hn u hu
      rcases h8 _ hp it hit with h | h
      · exact absurd hn h
      · rw [hu] at h; exact ih k' u h

def equalTextsB (t : AToken) : Bool :=
  t.post.all fun u => u.children.all fun w => match lastWith w.discovery u.inside with
    | some v => v.name = w.name && v.items.map Item.name = w.items.map Item.name
    | none => true

theorem equalTextsB_sound (t : AToken) (h : equalTextsB t = true) : EqualTexts t := by
  intro u hu w hw v hv
  simp only [equalTextsB, List.all_eq_true] at h
  have := h u hu w hw
  rw [hv] at this
  simpa using this

/-! ## A program with blanks and comments -/

def art (name text : String) : AMatch := ar name (lit text)
/-- A blank. -/
def blankT : AMatch := art "WHITESPACES" " "
/-- A variable as an operation, with the blank after it. -/
def opT (a b : String) : AToken :=
  at_ .operation [ac (at_ .operationWithSuffix [ac (at_ .operationElement [ac (nameT (lit a) (lit b))]), blankT])]
def breakT : AToken := at_ .instruction [ac (at_ .direction [art "BREAK" "break"])]
def ifT (a b : String) (body : List AMatch) : AToken :=
  at_ .ifDeclaration ([ac (at_ .ifOperation [art "IF" "if", blankT, ac (opT a b)]), art "OPEN_BRACKET" "{", blankT] ++ body ++
    [art "MULTI_LINE_COMMENT" "/*end*/", art "CLOSE_BRACKET" "}"])
def bodyT (l : List AToken) : AToken := at_ .instructions [.token (lit "instruction") l]
/-- `if ab { break/*end*/}if cd { if ab { break/*end*/}break/*end*/}`, where texts are repeated. -/
def exProgramT : AToken :=
  at_ .program [ac (bodyT [at_ .instruction [ac (ifT "a" "b" [ac (bodyT [breakT])])],
    at_ .instruction [ac (ifT "c" "d" [ac (bodyT [at_ .instruction [ac (ifT "a" "b" [ac (bodyT [breakT])])], breakT])])]])]

theorem exProgramT_conf : ConfT exCfg .program exProgramT := confTB_sound exCfg 30 _ _ (by decide +kernel)
theorem exProgramT_equal : EqualTexts exProgramT := equalTextsB_sound _ (by decide +kernel)

end Verif.Base
