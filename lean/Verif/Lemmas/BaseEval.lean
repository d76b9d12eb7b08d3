import Verif.Lemmas.BaseApp
import Verif.Lemmas.GrammarSame
import Verif.Props.App
import Verif.Spec.BaseApp

/-!
# Lemmas: the shipped lexer as a term which the kernel can evaluate
-/

set_option maxRecDepth 1000000

namespace Verif.Base
open Verif.Text Verif.Patterns Verif.Lexer Verif.Cardinality

def ruleB (n : Str) : Rule :=
  match rulesData.find? (fun r => r.name = n) with
  | some r => ruleFor r
  | none => ⟨[], [], .constant [], []⟩
def instrB : Text.Item → GInstr
  | .token n _ k specs _ => .element ⟨.token n (specs.map fun s => ⟨.token s.name, s.card⟩), [], k⟩
  | .rule n _ k => .element ⟨.rule (ruleB n), [], k⟩
  | .switch => .channelSwitch
def tokenB (t : TokenT) : GToken := ⟨t.name, t.must.map fun l => (survivors false (l.1.map Prod.snd)).map instrB, none, none⟩
def setB (l : List TokenT) : TokenSet := ⟨l.map tokenB, mapByName GToken.name (l.map tokenB) GoMap.empty⟩

/-- No lines which must not match, and no rules as specifiers. -/
def plainB (t : TokenT) : Bool :=
  t.not.isNone && t.must.all fun l => l.1.all fun x => match x.2 with
    | .token _ _ _ specs _ => specs.all fun s => !s.isRule
    | _ => true

theorem plain_data : (tokensData ++ channelsData).all plainB = true := by decide +kernel

theorem survivors_mem {i : Text.Item} : ∀ {l : List Text.Item} {b : Bool}, i ∈ survivors b l → i ∈ l
  | [], _, h => by cases h
  | x :: l, b, h => by
    cases x with
    | switch =>
      cases b
      · simp only [survivors, Bool.false_eq_true, if_false] at h
        rcases List.mem_cons.mp h with h | h
        · exact h ▸ List.mem_cons_self
        · exact List.mem_cons_of_mem _ (survivors_mem h)
      · simp only [survivors, if_true] at h
        exact List.mem_cons_of_mem _ (survivors_mem h)
    | token n g k s c =>
      simp only [survivors] at h
      rcases List.mem_cons.mp h with h | h
      · exact h ▸ List.mem_cons_self
      · exact List.mem_cons_of_mem _ (survivors_mem h)
    | rule n g k =>
      simp only [survivors] at h
      rcases List.mem_cons.mp h with h | h
      · exact h ▸ List.mem_cons_self
      · exact List.mem_cons_of_mem _ (survivors_mem h)

theorem forall2_map_right {α β γ : Type} {R : α → β → Prop} {S : β → γ → Prop} {f : α → γ} {l : List α} {m : List β} (h : List.Forall₂ R l m)
    (hf : ∀ a ∈ l, ∀ b, R a b → S b (f a)) : List.Forall₂ S m (l.map f) := by
  induction h with
  | nil => exact .nil
  | cons hx _ ih => exact .cons (hf _ List.mem_cons_self _ hx) (ih fun a ha => hf a (List.mem_cons_of_mem _ ha))

section
variable {rs : RuleSet} (hu : uniqueNow Rule.name rs.list = .ok rs) (hr : rs.list = rulesData.map ruleFor)
include hu hr

theorem ruleB_of {n : Str} {r : Rule} (h : rs.find n = .ok r) : r = ruleB n := by
  obtain ⟨hm, hn⟩ := ((C38_unique_find _ _ hu).2.1 n r).mp h
  rw [hr] at hm
  obtain ⟨x, hx, rfl⟩ := List.mem_map.mp hm
  have := find_nodup rulesData_nodup hx
  have hn' : x.name = n := hn
  subst hn'
  simp only [ruleB, this]

theorem shows_same {t : TokenT} {g : GToken} (hp : plainB t = true) (h : TokenShows rs t g) : SameToken g (tokenB t) := by
  obtain ⟨h1, h2, h3, _⟩ := h
  simp only [plainB, Bool.and_eq_true, Option.isNone_iff_eq_none] at hp
  refine ⟨h1, ?_, ?_⟩
  · refine forall2_map_right h2 fun l hl gl hgl => forall2_map_right hgl fun i hi gi hgi => ?_
    have hmem := survivors_mem hi
    rw [List.all_eq_true] at hp
    have := hp.2 l hl
    rw [List.all_eq_true] at this
    obtain ⟨x, hx, rfl⟩ := List.mem_map.mp hmem
    have hq := this x hx
    cases hx2 : x.2 with
    | token n gap k specs close =>
      rw [hx2] at hgi hq
      cases gi with
      | channelSwitch => cases hgi
      | element e =>
        obtain ⟨⟨gs, e1, e2⟩, e3, _⟩ := hgi
        refine ⟨?_, e3⟩
        rw [e1]
        simp only [GContent.token.injEq, true_and]
        simp only [List.all_eq_true, Bool.not_eq_true'] at hq
        have := forall₂_map_mem (g := id) (f := fun s : SpecT => (⟨.token s.name, s.card⟩ : GSpec)) e2 (fun s hs b hb => by
          obtain ⟨b1, b2, _⟩ := hb
          have := b2 (hq s hs)
          cases b
          simp_all)
        simpa using this
    | rule n gap k =>
      rw [hx2] at hgi
      cases gi with
      | channelSwitch => cases hgi
      | element e =>
        obtain ⟨⟨r, e1, e2⟩, e3, _⟩ := hgi
        exact ⟨by rw [e2, ruleB_of hu hr e1], e3⟩
    | switch =>
      rw [hx2] at hgi
      cases gi with
      | channelSwitch => trivial
      | element e => cases hgi
  · rw [hp.1] at h3
    cases hg : g.not with
    | none => trivial
    | some l => rw [hg] at h3; cases h3

theorem same_list {l : List TokenT} (hl : l.all plainB = true) {gs : List GToken} (h : List.Forall₂ (TokenShows rs) l gs) :
    List.Forall₂ SameToken gs (l.map tokenB) :=
  forall2_map_right h fun t ht g hg => shows_same hu hr (List.all_eq_true.mp hl t ht) hg
end

theorem same_find {l l' : List GToken} (h : List.Forall₂ SameToken l l') {ts ts' : TokenSet} (ht : uniqueNow GToken.name l = .ok ts)
    (ht' : uniqueNow GToken.name l' = .ok ts') (n : Str) : SameFind (ts.find n) (ts'.find n) := by
  obtain ⟨_, a1, a2, a3⟩ := C38_unique_find l ts ht
  obtain ⟨_, b1, b2, b3⟩ := C38_unique_find l' ts' ht'
  cases hx : ts.find n with
  | panic => exact absurd hx (a3 n)
  | ok t =>
    obtain ⟨hm, hn⟩ := (a1 n t).mp hx
    obtain ⟨t', hm', hs⟩ := (forall2_mem h).1 t hm
    rw [(b1 n t').mpr ⟨hm', hs.1 ▸ hn⟩]
    exact hs
  | err =>
    have hn := (a2 n).mp hx
    rw [(b2 n).mpr ?_]
    · trivial
    · intro t' hm'
      obtain ⟨t, hm, hs⟩ := (forall2_mem h).2 t' hm'
      exact hs.1 ▸ hn t hm

theorem names_unique {l : List TokenT} (h0 : l ≠ []) (hn : (l.map TokenT.name).Nodup) : uniqueNow GToken.name (l.map tokenB) = .ok (setB l) := by
  have hn' : ((l.map tokenB).map GToken.name).Nodup := by rw [List.map_map]; exact hn
  cases l with
  | nil => exact absurd rfl h0
  | cons a l =>
    rcases mapUnique_spec (name := GToken.name) ((a :: l).map tokenB) GoMap.empty with ⟨h1, h2, h3⟩ | ⟨h1, h2⟩
    · simp only [List.map_cons] at h3
      simp only [uniqueNow, List.map_cons, h3, Out.bind_ok, Out.pure_eq]
      rfl
    · exact absurd ⟨hn', fun _ _ => rfl⟩ h1

/-- The matcher of the application for the shipped texts. -/
def baseMatcher (ts cs : TokenSet) (d : Nat) (order : List Path → Nat → List Path) (fuel : Nat) (root : Str) (content : Content) : Option (Out AST) :=
  match ts.find root with
  | .err => some .err
  | .panic => some .panic
  | .ok t =>
    match matcherNow { tokens := ts } d t (some cs) with
    | .err => some .err
    | .panic => some .panic
    | .ok (p, ps) => (toAST ⟨p, order ps⟩ content.isPrefixLegal fuel content.content ⟨content.isPrefixLegal, fun _ => none, 0⟩).map (·.1)

theorem matcher_same {ts cs ts' cs' : TokenSet} (hf : ∀ n, SameFind (ts.find n) (ts'.find n)) (s1 : List.Forall₂ SameToken ts.list ts'.list)
    (s2 : List.Forall₂ SameToken cs.list cs'.list) (d : Nat) (order : List Path → Nat → List Path) (fuel : Nat) (root : Str) (content : Content) :
    baseMatcher ts cs d order fuel root content = baseMatcher ts' cs' d order fuel root content := by
  have he : SameEnv { tokens := ts } { tokens := ts' } := ⟨rfl, rfl, hf⟩
  unfold baseMatcher
  have := hf root
  unfold SameFind at this
  cases e1 : ts.find root <;> cases e2 : ts'.find root <;> rw [e1, e2] at this <;> simp only at this ⊢
  rw [same_matcher he s1 d this s2]

theorem app_plain {fe : Frontend} {c : ResContainer} {channels : Str} {ts cs : TokenSet} (hc : NoLinks fe c) (h : Reads fe c channels ts (some cs))
    (base : FilePaths) (d : Nat) (order : List Path → Nat → List Path) (fuel : Nat) (root : Str) (content : Content) :
    appAST fe base d order fuel root c channels content GoMap.empty = (baseMatcher ts cs d order fuel root content, GoMap.empty) := by
  have hct := createTokens_ok.mpr h
  unfold baseMatcher
  cases ht : ts.find root with
  | err => simp [appAST, appCall, createRootToken, hct, ht]
  | panic => simp [appAST, appCall, createRootToken, hct, ht]
  | ok t =>
    have hr : createRootToken fe root c channels = .ok (t, ts, some cs) := by
      simp [createRootToken, hct, ht]
    simp [appAST, appCall, hr, show fe.toReferences c.tokens = .ok ⟨none, none⟩ from hc, createFuncs_closed, appEnv_empty]
    rfl

theorem same_base : ∃ ps rs ts cs, Text.toPatterns patternsAlex = .ok ps ∧ Text.toRules rulesAlex ps = .ok rs ∧
    Text.toTokens rs tokensAlex = .ok ts ∧ Text.toTokens rs channelsAlex = .ok cs ∧
    (∀ n, SameFind (ts.find n) ((setB tokensData).find n)) ∧ List.Forall₂ SameToken ts.list (setB tokensData).list ∧
    List.Forall₂ SameToken cs.list (setB channelsData).list := by
  obtain ⟨ps, rs, ts, cs, h1, h2, h3, h4, h5, h6, h7, h8, h9⟩ := base_exact
  have hp := plain_data
  rw [List.all_append, Bool.and_eq_true] at hp
  have hu := rules_unique h2
  have s1 := same_list hu h7 hp.1 h8
  have s2 := same_list hu h7 hp.2 h9
  exact ⟨ps, rs, ts, cs, h1, h2, h3, h4, same_find s1 (tokens_unique h3) (names_unique (by simp [tokensData]) tokensData_nodup), s1, s2⟩

end Verif.Base
