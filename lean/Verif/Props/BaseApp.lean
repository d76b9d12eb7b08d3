import Verif.Lemmas.BaseRuns
import Verif.Lemmas.BaseSimple
import Verif.Props.BaseSource

/-!
# Property C93: the lexer and the parser on the shipped texts

`x.ast order fuel name script` is the result of `AST` of the application with the shipped texts (`Spec/BaseApp.lean`).
-/

set_option maxRecDepth 100000

namespace Verif.Base
open Verif.Patterns Verif.Lexer Verif.Cardinality

section
variable {ps : PatternSet} {rs : RuleSet} {ts cs : TokenSet} (hs : Shipped ps rs ts cs) (x : Setting) (order : List Path → Nat → List Path)
  (ho : AnyOrder order) (fuel : Nat) (k : Kind) (script : Str) (hlen : script.length < 2 ^ 63) (a : AToken)
  (h : x.ast order fuel k.name script = some (.ok (.success a)))
include hs ho hlen h

/-- C93: every success of the lexer on the shipped texts is a derivation tree, for the token asked for, of the grammar read from them, for a beginning
of the script; a line is given up only at the end of the script in front of an optional part, or in front of a token from which its own can be reached. -/
theorem C93_tree : ∃ t ∈ ts.list, t.name = k.name ∧ (∃ count, Tree ts.list cs.list (GivesUp ts.list) t script a count) ∧ a.discovery <+: script := by
  have hb := shipped_read hs
  obtain ⟨t, ht, hk, p, chans, hp, hrun⟩ := base_matchers hs k
  rw [x.ast_eq hs, hrun _ x.enough] at h
  simp only [Option.map_eq_some_iff] at h
  obtain ⟨⟨r, st'⟩, h1, rfl⟩ := h
  obtain ⟨count, h2, h3⟩ := C92_derivation { tokens := ts } ts.list hb.tokensNow ⟨fun _ => rfl, fun _ => rfl⟩ t ht (some cs) hb.ordinary 64 p chans
    (hp 64 (le_refl _)) (order chans) (ho chans) fuel script hlen _ st' rfl a h1
  exact ⟨t, ht, hk.1, ⟨count, h2⟩, h3⟩

/-- C93: the trees of the tokens without recursion (names, operators, types which are not lists, single values and so on) are complete. -/
theorem C93_simple (hk : simpleB 12 k = true) :
    ∃ t ∈ ts.list, t.name = k.name ∧ ∃ count, Tree ts.list cs.list NeverGivesUp t script a count := by
  have hb := shipped_read hs
  obtain ⟨t, ht, hn, ⟨count, h1⟩, _⟩ := C93_tree hs x order ho fuel k script hlen a h
  refine ⟨t, ht, hn, count, tree_simple (fun c hc => channels_simple hb hc) h1 ?_⟩
  obtain ⟨t', ht', hk'⟩ := hb.kind k
  have e1 := ((C38_unique_find _ _ hb.tokensNow).2.1 k.name t).mpr ⟨ht, hn⟩
  have e2 := ((C38_unique_find _ _ hb.tokensNow).2.1 k.name t').mpr ⟨ht', hk'.1⟩
  rw [e1] at e2
  cases e2
  exact simpleB_sound hb 12 k hk t ht hk'

end

/-- C93: a complete derivation tree of a token of the shipped texts whose numbers are in range is a tree of the grammar of the parser (`Spec/BaseSource.lean`). -/
theorem C93_conforms {ps : PatternSet} {rs : RuleSet} {ts cs : TokenSet} (hs : Shipped ps rs ts cs) (cfg : Cfg) (k : Kind) (t : GToken) (ht : t ∈ ts.list)
    (hk : t.name = k.name) (script : Str) (a : AToken) (count : Str → Nat) (h : Tree ts.list cs.list NeverGivesUp t script a count) (hl : Lits cfg a) :
    ConfT cfg k a := by
  have hb := shipped_read hs
  obtain ⟨t', ht', hk'⟩ := hb.kind k
  have e1 := ((C38_unique_find _ _ hb.tokensNow).2.1 k.name t).mpr ⟨ht, hk⟩
  have e2 := ((C38_unique_find _ _ hb.tokensNow).2.1 k.name t').mpr ⟨ht', hk'.1⟩
  rw [e1] at e2
  cases e2
  exact (tree_conf (fun c hc l hl => hb.chanLine hc hl) (fun u hu => hb.token hu) (fun n r hr => (hb.find_rule hr).2) source_fits C91_view h hk' hl).1

/-- C93: if the lexer recognises a program, and the tree conforms to the grammar and no equal texts are matched differently (C77), then `Root` gives a root,
and every run of the parser on it gives a program. -/
theorem C93_program (x : Setting) (order : List Path → Nat → List Path) (fuel : Nat) (script : Str) (a : AToken)
    (h : x.ast order fuel (Kind.name .program) script = some (.ok (.success a))) (cfg : Cfg) (hc : ConfT cfg .program a) (heq : EqualTexts a) :
    ∃ r, x.root order fuel (Kind.name .program) script = some (.ok (.inl (some r))) ∧ (∃ y, AppRun (some (baseEvents cfg)) r y) ∧
      ∀ y, AppRun (some (baseEvents cfg)) r y → ∃ p, y = .ok (.other (.program p)) := by
  obtain ⟨r, h1, _, h3, h4⟩ := C82_program cfg a hc heq
  exact ⟨r, x.root_eq h h1, h3, h4⟩

/-! The hypotheses are met. -/

theorem run_if : ∃ a, ConfT exCfg .program a ∧ EqualTexts a ∧ ∀ (x : Setting) (order : List Path → Nat → List Path), AnyOrder order → ∀ fuel, 3000 ≤ fuel →
    x.ast order fuel (Kind.name .program) (lit "if ab { break }") = some (.ok (.success a)) := by
  have := runs
  simp only [Bool.and_eq_true] at this
  obtain ⟨a, h1, h2⟩ := run_success this.1.1.1.1.1.1.1
  rw [Bool.and_eq_true] at h1
  exact ⟨a, confTB_sound _ _ _ _ h1.1, equalTextsB_sound a h1.2, h2⟩

/-- From the text `if ab { break }` to a program, whatever the orders of the maps are. -/
theorem C93_example (x : Setting) (order : List Path → Nat → List Path) (ho : AnyOrder order) (fuel : Nat) (hf : 3000 ≤ fuel) :
    ∃ r, x.root order fuel (Kind.name .program) (lit "if ab { break }") = some (.ok (.inl (some r))) ∧ (∃ y, AppRun (some (baseEvents exCfg)) r y) ∧
      ∀ y, AppRun (some (baseEvents exCfg)) r y → ∃ p, y = .ok (.other (.program p)) := by
  obtain ⟨a, h1, h2, h3⟩ := run_if
  exact C93_program x order fuel _ a (h3 x order ho fuel hf) exCfg h1 h2

theorem run_name : ∃ a : AToken, a.discovery = lit "xyz" ∧ ∀ (x : Setting) (order : List Path → Nat → List Path), AnyOrder order → ∀ fuel, 3000 ≤ fuel →
    x.ast order fuel (Kind.name .variableName) (lit "xyz = 12") = some (.ok (.success a)) := by
  have := runs
  simp only [Bool.and_eq_true] at this
  obtain ⟨a, h1, h2⟩ := run_success this.2
  exact ⟨a, by simpa using h1, h2⟩

/-- There is a setting, an order and a run which meets the hypotheses of `C93_tree`, `C93_simple` and `C93_conforms`. -/
example : ∃ ps rs ts cs, Shipped ps rs ts cs ∧ ∃ t ∈ ts.list, t.name = Kind.name .variableName ∧
    ∃ a count, Tree ts.list cs.list NeverGivesUp t (lit "xyz = 12") a count ∧ a.discovery = lit "xyz" := by
  obtain ⟨ps, rs, ts, cs, hs, _⟩ := shipped
  obtain ⟨a, h1, h2⟩ := run_name
  have x : Setting := ⟨fun _ _ => .err, fun _ _ => .err, ⟨[], []⟩, 64, le_refl _⟩
  obtain ⟨t, ht, hn, count, h3⟩ := C93_simple hs x (fun l _ => l) (fun _ _ => List.Perm.refl _) 3000 .variableName _ (by decide) a
    (h2 x _ (fun _ _ => List.Perm.refl _) 3000 (le_refl _)) (by decide +kernel)
  exact ⟨ps, rs, ts, cs, hs, t, ht, hn, a, count, h3, h1⟩

/-! ## C94: the orders of the channels -/

/-- C94: the shipped channels (blanks, comments of lines and comments of blocks) cannot begin at the same place; so the result of the lexer on the shipped
texts is the same for all orders in which the map of the channels is read. -/
theorem C94_shipped (x : Setting) (order order' : List Path → Nat → List Path) (ho : AnyOrder order) (ho' : AnyOrder order') (fuel : Nat) (k : Kind)
    (script : Str) : x.ast order fuel k.name script = x.ast order' fuel k.name script := by
  obtain ⟨ps, rs, ts, cs, hs, hb, _⟩ := shipped
  obtain ⟨t, ht, _, p, chans, hp, hrun⟩ := base_matchers hs k
  rw [x.ast_eq hs, x.ast_eq hs, hrun _ x.enough, hrun _ x.enough]
  exact C94_order _ _ t cs hb.apart p chans (hp 64 (le_refl _)) _ _ (ho chans) (ho' chans) _ _ rfl rfl fuel script

/-- C94: nor does it matter how deep the stack is, beyond 64 calls, what else is in the file system, and where the application looks for it. -/
theorem C94_setting (x x' : Setting) (order : List Path → Nat → List Path) (fuel : Nat) (k : Kind) (script : Str) :
    x.ast order fuel k.name script = x'.ast order fuel k.name script := by
  obtain ⟨ps, rs, ts, cs, hs, hb, _⟩ := shipped
  obtain ⟨t, ht, _, p, chans, hp, hrun⟩ := base_matchers hs k
  rw [x.ast_eq hs, x'.ast_eq hs, hrun _ x.enough, hrun _ x'.enough]

/-! ## C95: texts which are not programs -/

/-- What the lexer does with a text in every setting, for every order of the channels, when it has enough steps. -/
def Accepts (k : Kind) (script found : Str) : Prop := ∃ a : AToken, a.discovery = found ∧ ∀ (x : Setting) (order : List Path → Nat → List Path),
  AnyOrder order → ∀ fuel, 3000 ≤ fuel → x.ast order fuel k.name script = some (.ok (.success a))
def Rejects (k : Kind) (script : Str) : Prop := ∃ m : Mistake, ∀ (x : Setting) (order : List Path → Nat → List Path),
  AnyOrder order → ∀ fuel, 3000 ≤ fuel → x.ast order fuel k.name script = some (.ok (.mistake m))

theorem accepts {k : Kind} {script found : Str} (h : okRun (onSuccess fun a => a.discovery = found) (baseRun k script) = true) : Accepts k script found := by
  obtain ⟨a, h1, h2⟩ := run_success h
  exact ⟨a, by simpa using h1, h2⟩

/-- C95, violation: a condition without its block, whose brace is never closed, is a program, all of it. (With an instruction behind the brace it is not.) -/
theorem C95_open_brace : Accepts .program (lit "if ab {") (lit "if ab {") ∧ Rejects .program (lit "if ab { break") := by
  have := runs
  simp only [Bool.and_eq_true] at this
  exact ⟨accepts this.1.1.1.1.1.1.2, run_mistake this.1.2⟩

/-- C95, violation: an assignment without its value, whose bracket is never closed, is a program. -/
theorem C95_open_bracket : Accepts .program (lit "xy = [") (lit "xy = [") := by
  have := runs
  simp only [Bool.and_eq_true] at this
  exact accepts this.1.1.1.1.1.2

/-- C95, violation: the declaration of a list of integers is not read as one: what is found is a program, but ends in front of the bracket which closes
the type. -/
theorem C95_list_type : Accepts .program (lit "list<int> xy") (lit "list<int") := by
  have := runs
  simp only [Bool.and_eq_true] at this
  exact accepts this.1.1.1.1.2

/-- C95, violation: what follows the program is ignored, although no suffix is allowed. -/
theorem C95_trailing : Accepts .program (lit "break }") (lit "break") := by
  have := runs
  simp only [Bool.and_eq_true] at this
  exact accepts this.1.1.1.2

/-- C95: a text which does not begin with an instruction is rejected. -/
theorem C95_brace_rejected : Rejects .program (lit "}") := by
  have := runs
  simp only [Bool.and_eq_true] at this
  exact run_mistake this.1.1.2

end Verif.Base
