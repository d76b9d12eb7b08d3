import Verif.Lemmas.BaseEval
import Verif.Lemmas.BaseOrder
import Verif.Lemmas.Depth

/-!
# The shipped lexer
-/

namespace Verif.Base
open Verif.Patterns Verif.Lexer Verif.Cardinality

theorem channelsAlex_ne : channelsAlex ≠ [] := by
  rw [channelsAlex, channelsPieces_eq]
  simp [channelsPiecesB]

/-- The tokens and channels read from the shipped texts. -/
structure Shipped (ps : PatternSet) (rs : RuleSet) (ts cs : TokenSet) : Prop where
  patterns : Text.toPatterns patternsAlex = .ok ps
  rules : Text.toRules rulesAlex ps = .ok rs
  tokens : Text.toTokens rs tokensAlex = .ok ts
  channels : Text.toTokens rs channelsAlex = .ok cs

theorem shipped : ∃ ps rs ts cs, Shipped ps rs ts cs ∧ BaseRead rs ts cs ∧ (∀ n, SameFind (ts.find n) ((setB tokensData).find n)) ∧
    List.Forall₂ SameToken ts.list (setB tokensData).list ∧ List.Forall₂ SameToken cs.list (setB channelsData).list := by
  obtain ⟨ps, rs, ts, cs, h1, h2, h3, h4, h5⟩ := base_read
  obtain ⟨ps', rs', ts', cs', k1, k2, k3, k4, k5, k6, k7⟩ := same_base
  rw [h1] at k1; cases k1
  rw [h2] at k2; cases k2
  rw [h3] at k3; cases k3
  rw [h4] at k4; cases k4
  exact ⟨ps, rs, ts, cs, ⟨h1, h2, h3, h4⟩, h5, k5, k6, k7⟩

theorem shipped_read {ps : PatternSet} {rs : RuleSet} {ts cs : TokenSet} (h : Shipped ps rs ts cs) : BaseRead rs ts cs := by
  obtain ⟨ps', rs', ts', cs', k, k5, _⟩ := shipped
  have e1 := h.patterns.symm.trans k.patterns; cases e1
  have e2 := h.rules.symm.trans k.rules; cases e2
  have e3 := h.tokens.symm.trans k.tokens; cases e3
  have e4 := h.channels.symm.trans k.channels; cases e4
  exact k5

theorem Setting.reads (x : Setting) {ps : PatternSet} {rs : RuleSet} {ts cs : TokenSet} (h : Shipped ps rs ts cs) :
    Reads (textFrontend x.read x.includePath) baseContainer channelsAlex ts (some cs) :=
  ⟨ps, rs, h.patterns, h.rules, h.tokens, by rw [if_neg channelsAlex_ne]; exact ⟨cs, rfl, h.channels⟩⟩

theorem Setting.noLinks (x : Setting) : NoLinks (textFrontend x.read x.includePath) baseContainer := base_no_references

theorem Setting.astOf_eq (x : Setting) {c : ResContainer} {channels : Str} {ts cs : TokenSet} (hc : NoLinks (textFrontend x.read x.includePath) c)
    (h : Reads (textFrontend x.read x.includePath) c channels ts (some cs)) (order : List Path → Nat → List Path) (fuel : Nat) (root script : Str) :
    x.astOf c channels order fuel root script = baseMatcher ts cs x.depth order fuel root ⟨script, false, false⟩ := by
  unfold Setting.astOf
  rw [app_plain hc h]

theorem Setting.ast_eq (x : Setting) {ps : PatternSet} {rs : RuleSet} {ts cs : TokenSet} (h : Shipped ps rs ts cs) (order : List Path → Nat → List Path)
    (fuel : Nat) (root script : Str) : x.ast order fuel root script = baseMatcher ts cs x.depth order fuel root ⟨script, false, false⟩ :=
  x.astOf_eq x.noLinks (x.reads h) order fuel root script

theorem Setting.rootOf_eq (x : Setting) (c : ResContainer) (channels : Str) (order : List Path → Nat → List Path) (fuel : Nat) (root script : Str) :
    x.rootOf c channels order fuel root script = match x.astOf c channels order fuel root script with
    | none => none
    | some .err => some .err
    | some .panic => some .panic
    | some (.ok (.mistake m)) => some (.ok (.inr m))
    | some (.ok (.success t)) => some (do let r ← toRoot t; return .inl r) := rfl

theorem Setting.root_eq (x : Setting) {order : List Path → Nat → List Path} {fuel : Nat} {root script : Str} {a : AToken}
    (h : x.ast order fuel root script = some (.ok (.success a))) {r : Option Root} (hr : toRoot a = .ok r) :
    x.root order fuel root script = some (.ok (.inl r)) := by
  have h' : x.astOf baseContainer channelsAlex order fuel root script = some (.ok (.success a)) := h
  show x.rootOf baseContainer channelsAlex order fuel root script = _
  rw [Setting.rootOf_eq, h']
  dsimp only
  rw [hr]
  rfl

/-- One matcher for each token, whatever the depth. -/
theorem base_matchers {ps : PatternSet} {rs : RuleSet} {ts cs : TokenSet} (h : Shipped ps rs ts cs) (k : Kind) :
    ∃ t ∈ ts.list, TokenIs rs k t ∧ ∃ p chans, (∀ d, 64 ≤ d → matcherNow { tokens := ts } d t (some cs) = .ok (p, chans)) ∧
      ∀ d, 64 ≤ d → ∀ order fuel content, baseMatcher ts cs d order fuel k.name content =
        (toAST ⟨p, order chans⟩ content.isPrefixLegal fuel content.content ⟨content.isPrefixLegal, fun _ => none, 0⟩).map (·.1) := by
  have hb := shipped_read h
  obtain ⟨t, ht, hm, hk⟩ := hb.find_kind k
  obtain ⟨p, chans, hp⟩ := hb.matcher hm (d := 64) (by omega)
  refine ⟨t, hm, hk, p, chans, fun d hd => matcherNow_mono _ hd hp, ?_⟩
  intro d hd order fuel content
  unfold baseMatcher
  rw [ht]
  dsimp only
  rw [matcherNow_mono _ hd hp]

theorem toAST_mono {env : Env} {b : Bool} {n m : Nat} (hnm : n ≤ m) {script : Str} {st : St} {r : Out AST × St}
    (h : toAST env b n script st = some r) : toAST env b m script st = some r := by
  revert h
  refine M.Le.bind (toToken_mono env n m hnm script) (fun _ => M.Le.refl _) st r

/-- What a run in the kernel says about all runs. -/
theorem base_witness {F : Nat} {k : Kind} {script : Str} {f : AST → Bool}
    (h : (match baseMatcher (setB tokensData) (setB channelsData) 64 (fun ps _ => ps) F k.name ⟨script, false, false⟩ with
      | some (.ok a) => f a | _ => false) = true) :
    ∃ a, f a = true ∧ ∀ (x : Setting) (order : List Path → Nat → List Path), AnyOrder order → ∀ fuel, F ≤ fuel → x.ast order fuel k.name script = some (.ok a) := by
  obtain ⟨ps, rs, ts, cs, hs, hb, s1, s2, s3⟩ := shipped
  rw [← matcher_same s1 s2 s3] at h
  obtain ⟨t, ht, _, p, chans, hp, hrun⟩ := base_matchers hs k
  rw [hrun 64 (by omega)] at h
  cases h1 : toAST ⟨p, fun _ => chans⟩ false F script ⟨false, fun _ => none, 0⟩ with
  | none => rw [h1] at h; cases h
  | some r =>
    rw [h1] at h
    obtain ⟨r, st'⟩ := r
    cases r with
    | err => cases h
    | panic => cases h
    | ok a =>
      refine ⟨a, h, fun x order ho fuel hf => ?_⟩
      rw [x.ast_eq hs, hrun _ x.enough]
      have := C94_order _ _ t cs hb.apart p chans (hp 64 (by omega)) (order chans) (fun _ => chans) (ho chans) (fun _ => List.Perm.refl _)
        ⟨false, fun _ => none, 0⟩ ⟨false, fun _ => none, 0⟩ rfl rfl fuel script
      dsimp only
      rw [this, toAST_mono hf h1]
      rfl

end Verif.Base
