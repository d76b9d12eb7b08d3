import Verif.Lemmas.RootTotal
import Verif.Props.BaseTotal
import Verif.Props.BaseApp

/-!
# Property C103: a root or a mistake for every text
-/

namespace Verif.Lexer
open Verif.Patterns Verif.Cardinality

/-- C103: every syntax tree which `ToAST` gives for a grammar whose tokens and rules have names can be converted: `ToRoot` gives a root, with the name of
the token and the recognised text, which is a beginning of the script and not empty. -/
theorem C103_converts (g : PathEnv) (ts : List GToken) (h : tokensNow ts = .ok g.tokens) (hclosed : GClosed g) (root : GToken) (hroot : root ∈ ts)
    (channels : Option TokenSet) (hgood : OrdinaryGrammar ts (chanList channels)) (hn : ∀ t ∈ ts, t.name ≠ [])
    (hr : ∀ t, t ∈ ts ∨ t ∈ chanList channels → ∀ l ∈ t.must, ∀ e, .element e ∈ l → ∀ r, e.content = .rule r → r.name ≠ [])
    (d : Nat) (p : Path) (ps : List Path) (hm : matcherNow g d root channels = .ok (p, ps)) (order : Nat → List Path) (hperm : ∀ k, (order k).Perm ps)
    (fuel : Nat) (script : Str) (hlen : script.length < 2 ^ 63) (st st' : St) (hst : st.canPrefix = false) (a : AToken)
    (hrun : toAST ⟨p, order⟩ false fuel script st = some (.ok (.success a), st')) :
    ∃ r, toRoot a = .ok (some r) ∧ r.name = root.name ∧ r.content <+: script ∧ r.content ≠ [] := by
  obtain ⟨count, h1, h2⟩ := C92_derivation g ts h hclosed root hroot channels hgood d p ps hm order hperm fuel script hlen st st' hst a hrun
  obtain ⟨hc, hd⟩ := Tree.convertible hn (fun t ht l hl e he r her => hr t ht l hl e he r her) h1 hroot
  obtain ⟨r, h3⟩ := (C45_outcome a).2.1.mpr hc
  obtain ⟨h4, h5, _⟩ := C45_shape a r h3
  refine ⟨r, h3, ?_, by rw [h5]; exact h2, by rw [h5]; exact hd⟩
  rw [h4]
  cases h1; rfl

end Verif.Lexer

namespace Verif.Base
open Verif.Patterns Verif.Lexer Verif.Cardinality

theorem kind_name_ne (k : Kind) : k.name ≠ [] := by cases k <;> decide

/-- C103: with the shipped texts `Root` answers on every script for every token: one result is that of all runs with enough steps, whatever the order of the
channels, the file system and the depth of the stack (from 64 on); it is a root with the name of the token, whose text is a beginning of the script and not
empty, or a mistake. There is never a nil root, an error, a panic or an endless run. -/
theorem C103_base_root (k : Kind) (script : Str) (hlen : script.length < 2 ^ 63) : ∃ F y,
    ((∃ r : Root, y = .inl (some r) ∧ r.name = k.name ∧ r.content <+: script ∧ r.content ≠ []) ∨ ∃ m : Mistake, y = .inr m) ∧
    ∀ (x : Setting) (order : List Path → Nat → List Path), AnyOrder order → ∀ fuel, F ≤ fuel → x.root order fuel k.name script = some (.ok y) := by
  obtain ⟨F, a, hF⟩ := C99_base_total k script
  obtain ⟨ps, rs, ts, cs, hs, hb, _⟩ := shipped
  cases a with
  | mistake m =>
    refine ⟨F, .inr m, .inr ⟨m, rfl⟩, fun x order ho fuel hf => ?_⟩
    have h := hF x order ho fuel hf
    have h' : x.astOf baseContainer channelsAlex order fuel k.name script = some (.ok (.mistake m)) := h
    show x.rootOf baseContainer channelsAlex order fuel k.name script = _
    rw [Setting.rootOf_eq, h']
  | success a =>
    have x0 : Setting := ⟨fun _ _ => .err, fun _ _ => .err, ⟨[], []⟩, 64, le_refl _⟩
    have h0 := hF x0 (fun l _ => l) (fun l _ => List.Perm.refl _) F (le_refl _)
    obtain ⟨t, ht, hname, ⟨count, h1⟩, h2⟩ := C93_tree hs x0 (fun l _ => l) (fun l _ => List.Perm.refl _) F k script hlen a h0
    have hn : ∀ t ∈ ts.list, t.name ≠ [] := by
      intro t ht
      obtain ⟨k', hk'⟩ := hb.token ht
      rw [hk'.1]; exact kind_name_ne k'
    have hmade := base_made hs
    obtain ⟨hc, hd⟩ := Tree.convertible hn (fun t ht l hl e he r her => ((hmade t ht).rules l hl e he r her).name) h1 ht
    obtain ⟨r, h3⟩ := (C45_outcome a).2.1.mpr hc
    obtain ⟨h4, h5, _⟩ := C45_shape a r h3
    have h6 : a.name = t.name := by cases h1; rfl
    refine ⟨F, .inl (some r), .inl ⟨r, rfl, ?_, by rw [h5]; exact h2, by rw [h5]; exact hd⟩, fun x order ho fuel hf => ?_⟩
    · rw [h4, h6, hname]
    · exact x.root_eq (hF x order ho fuel hf) h3

/-- Both outcomes occur. -/
example : (∃ F r, ∀ (x : Setting) (order : List Path → Nat → List Path), AnyOrder order → ∀ fuel, F ≤ fuel →
      x.root order fuel (Kind.name .program) (lit "if ab { break }") = some (.ok (.inl (some r))) ∧ r.content ≠ []) ∧
    ∃ F m, ∀ (x : Setting) (order : List Path → Nat → List Path), AnyOrder order → ∀ fuel, F ≤ fuel →
      x.root order fuel (Kind.name .program) (lit "if ab { break") = some (.ok (.inr m)) := by
  have x0 : Setting := ⟨fun _ _ => .err, fun _ _ => .err, ⟨[], []⟩, 64, le_refl _⟩
  constructor
  · obtain ⟨F, y, h1, h2⟩ := C103_base_root .program (lit "if ab { break }") (by decide)
    obtain ⟨r, h3, _⟩ := C93_example x0 (fun l _ => l) (fun _ _ => List.Perm.refl _) (max F 3000) (le_max_right _ _)
    have h4 := h2 x0 (fun l _ => l) (fun _ _ => List.Perm.refl _) (max F 3000) (le_max_left _ _)
    rw [h3] at h4
    simp only [Option.some.injEq, Out.ok.injEq] at h4
    subst h4
    refine ⟨F, r, fun x order ho fuel hf => ⟨h2 x order ho fuel hf, ?_⟩⟩
    rcases h1 with ⟨r', e, _, _, h⟩ | ⟨m, e⟩
    · simp only [Sum.inl.injEq, Option.some.injEq] at e
      rw [e]; exact h
    · simp at e
  · obtain ⟨F, y, h1, h2⟩ := C103_base_root .program (lit "if ab { break") (by decide)
    obtain ⟨m, hm⟩ := C95_open_brace.2
    rcases h1 with ⟨r', e, _⟩ | ⟨m', e⟩
    · subst e
      have h4 := h2 x0 (fun l _ => l) (fun _ _ => List.Perm.refl _) (max F 3000) (le_max_left _ _)
      have h5 := hm x0 (fun l _ => l) (fun _ _ => List.Perm.refl _) (max F 3000) (le_max_right _ _)
      have h5' : x0.astOf baseContainer channelsAlex (fun l _ => l) (max F 3000) (Kind.name .program) (lit "if ab { break") = some (.ok (.mistake m)) := h5
      have h4' : x0.rootOf baseContainer channelsAlex (fun l _ => l) (max F 3000) (Kind.name .program) (lit "if ab { break") = _ := h4
      rw [Setting.rootOf_eq, h5'] at h4'
      simp at h4'
    · subst e
      exact ⟨F, m', h2⟩

end Verif.Base
