import Verif.Lemmas.BaseTyped3
import Verif.Lemmas.BaseBuilt2
import Verif.Lemmas.BaseRuns
import Verif.Props.RootTotal
import Verif.Props.BaseSource

/-!
# Property C104: no text makes the shipped parser panic
-/

set_option maxRecDepth 100000

namespace Verif.Base
open Verif.Patterns Verif.Lexer Verif.Cardinality

/-- C104: whatever the text and the token are, for every root which the shipped lexer gives there is a run of the parser, and every run of it (whatever the
orders of the maps are) gives an error or an object for the token; no run panics. -/
theorem C104_no_panic (x : Setting) (order : List Path → Nat → List Path) (ho : AnyOrder order) (fuel : Nat) (k : Kind) (script : Str)
    (hlen : script.length < 2 ^ 63) (r : Root) (hr : x.root order fuel k.name script = some (.ok (.inl (some r)))) (cfg : Cfg)
    (hf : ∀ s n, cfg.parseFloat s n ≠ .panic) :
    (∃ y, AppRun (some (baseEvents cfg)) r y) ∧ ∀ y, AppRun (some (baseEvents cfg)) r y → y = .err ∨ ∃ v, y = .ok v ∧ Good k v := by
  refine ⟨(C76_ends cfg r).2, fun y hy => ?_⟩
  obtain ⟨ps, rs, ts, cs, hs, hb, _⟩ := shipped
  have hr' : x.rootOf baseContainer channelsAlex order fuel k.name script = some (.ok (.inl (some r))) := hr
  rw [Setting.rootOf_eq] at hr'
  cases ha : x.astOf baseContainer channelsAlex order fuel k.name script with
  | none => rw [ha] at hr'; simp at hr'
  | some o =>
    rw [ha] at hr'
    cases o with
    | err => simp at hr'
    | panic => simp at hr'
    | ok a =>
      cases a with
      | mistake m => simp at hr'
      | success a =>
        have ha' : x.ast order fuel k.name script = some (.ok (.success a)) := ha
        obtain ⟨t, ht, hn, ⟨count, h1⟩, _⟩ := C93_tree hs x order ho fuel k script hlen a ha'
        obtain ⟨k', hk'⟩ := hb.token ht
        obtain rfl : k' = k := name_inj (hk'.1.symm.trans hn)
        have hroot : toRoot a = .ok (some r) := by
          cases h : toRoot a with
          | err => simp [h] at hr'
          | panic => simp [h] at hr'
          | ok o => simp [h] at hr'; rw [hr']
        exact built_run hf (hb.built ⟨t, ht, hk', _, _, h1⟩ hroot) y hy

/-- C104: from the text to the object. For every text the lexer gives a mistake, or a root on which every run of the parser gives an error or an object for
the token: always the same root or mistake, whatever the orders of the maps are. -/
theorem C104_total (k : Kind) (script : Str) (hlen : script.length < 2 ^ 63) (cfg : Cfg) (hf : ∀ s n, cfg.parseFloat s n ≠ .panic) : ∃ F y,
    ((∃ m : Mistake, y = .inr m) ∨ ∃ r : Root, y = .inl (some r) ∧ (∃ z, AppRun (some (baseEvents cfg)) r z) ∧
      ∀ z, AppRun (some (baseEvents cfg)) r z → z = .err ∨ ∃ v, z = .ok v ∧ Good k v) ∧
    ∀ (x : Setting) (order : List Path → Nat → List Path), AnyOrder order → ∀ fuel, F ≤ fuel → x.root order fuel k.name script = some (.ok y) := by
  obtain ⟨F, y, h1, h2⟩ := C103_base_root k script hlen
  refine ⟨F, y, ?_, h2⟩
  rcases h1 with ⟨r, rfl, _⟩ | ⟨m, rfl⟩
  · right
    have x0 : Setting := ⟨fun _ _ => .err, fun _ _ => .err, ⟨[], []⟩, 64, le_refl _⟩
    exact ⟨r, rfl, C104_no_panic x0 (fun l _ => l) (fun l _ => List.Perm.refl _) F k script hlen r (h2 x0 _ (fun l _ => List.Perm.refl _) F (le_refl _)) cfg hf⟩
  · exact .inl ⟨m, rfl⟩

/-- The first hypothesis is met by the root of `if ab { break }`, and a run gives a program. -/
example (x : Setting) : ∃ r, x.root (fun l _ => l) 3000 (Kind.name .program) (lit "if ab { break }") = some (.ok (.inl (some r))) ∧
    ∃ y p, AppRun (some (baseEvents exCfg)) r y ∧ y = .ok (.other (.program p)) := by
  obtain ⟨r, h1, ⟨y, h2⟩, h3⟩ := C93_example x (fun l _ => l) (fun _ _ => List.Perm.refl _) 3000 (le_refl _)
  obtain ⟨p, rfl⟩ := h3 y h2
  exact ⟨r, h1, _, p, h2, rfl⟩

/-! The errors are needed: on a text of the grammar all the runs may fail (C77). -/

/-- A root of `listAppend` whose list cannot be read. -/
def clashB (r : Root) : Bool :=
  decide (r.name = Kind.name .listAppend) && (r.nodes.all fun n => if n.name = Kind.name .listValue then
    (match n.containers with
      | [c] => (match c.root with
        | some u => !(u.exists (lit "listAssignable")) && !(u.exists (lit "variableName"))
        | none => false)
      | _ => false) else !(nodeNames n).contains (Kind.name .listValue)) && (r.nodes.filter fun n => n.name = Kind.name .listValue).length == 1

theorem clashB_fails {r : Root} (h : clashB r = true) (cfg : Cfg) (x : Out V) (hx : AppRun (some (baseEvents cfg)) r x) : x = .err := by
  rw [clashB, Bool.and_eq_true, Bool.and_eq_true, decide_eq_true_eq, List.all_eq_true, beq_iff_eq] at h
  obtain ⟨⟨hname, hall⟩, hone⟩ := h
  obtain ⟨n, hn⟩ := List.length_eq_one_iff.mp hone
  have hnm : n ∈ r.nodes.filter fun n => n.name = Kind.name .listValue := by rw [hn]; simp
  rw [List.mem_filter, decide_eq_true_eq] at hnm
  have honly : ∀ m ∈ r.nodes, m ≠ n → Kind.name .listValue ∉ nodeNames m := by
    intro m hm hne
    have hmn : m.name ≠ Kind.name .listValue := by
      intro e
      have : m ∈ r.nodes.filter fun n => n.name = Kind.name .listValue := by rw [List.mem_filter]; exact ⟨hm, by simpa using e⟩
      rw [hn] at this
      exact hne (by simpa using this)
    have := hall m hm
    rw [if_neg hmn] at this
    simpa using this
  have hnn := hall n hnm.1
  rw [if_pos hnm.2] at hnn
  cases hcs : n.containers with
  | nil => rw [hcs] at hnn; simp at hnn
  | cons c cs =>
    cases cs with
    | cons => rw [hcs] at hnn; simp at hnn
    | nil =>
      rw [hcs] at hnn
      cases hu : c.root with
      | none => simp [hu] at hnn
      | some u =>
        simp only [hu, Bool.and_eq_true, Bool.not_eq_true'] at hnn
        have hev : ∀ y, EventsRun (baseEvents cfg) (Kind.name .listValue) u y → y = .err := by
          intro y hy
          refine events_err (k := .listValue) (fun o ho => ?_) hy
          rw [evOf, evListValue, opt, if_neg (by simp [hnn.1]), opt, if_neg (by simp [hnn.2])] at ho
          cases ho; rfl
        have ht : ∀ {x}, TriggerRun (baseEvents cfg) (lit "listValue") r x → x = .err := fun hx => trigger_fails hnm.1 hnm.2 honly hcs hu hev hx
        have key : ∀ o, ProgRun (baseEvents cfg) (evOf cfg .listAppend r) o → o = .err := by
          intro o ho
          rw [evOf, evListAppend] at ho
          cases ho with
          | triggerPanic hx => exact absurd (ht hx) (by simp)
          | trigger hx _ ho => rw [ht hx] at ho; cases ho; rfl
        have hm : ∀ x, ExecuteRun (baseEvents cfg) r x → x = .err := by
          intro x hx
          cases hx with
          | err => rfl
          | panic hx => rw [hname] at hx; exact absurd (events_err key hx) (by simp)
          | ok hx => rw [hname] at hx; exact absurd (events_err key hx) (by simp)
        cases hx with
        | noManager => rfl
        | err => rfl
        | panic he hx =>
          cases he
          exact absurd (hm _ hx) (by simp)
        | ok he hx =>
          cases he
          exact absurd (hm _ hx) (by simp)

/-- C104: an error does occur on a text of the grammar: `append ab, ab` is recognised, but every run of the parser on its root fails. -/
theorem C104_error_occurs (cfg : Cfg) : ∃ r, (∀ (x : Setting) (order : List Path → Nat → List Path), AnyOrder order → ∀ fuel, 3000 ≤ fuel →
      x.root order fuel (Kind.name .listAppend) (lit "append ab, ab") = some (.ok (.inl (some r)))) ∧ r.content = lit "append ab, ab" ∧
    ∀ y, AppRun (some (baseEvents cfg)) r y → y = .err := by
  have hrun : okRun (onSuccess fun a => match toRoot a with
    | .ok (some r) => decide (r.content = lit "append ab, ab") && clashB r
    | _ => false) (baseRun .listAppend (lit "append ab, ab")) = true := by decide +kernel
  obtain ⟨a, h1, h2⟩ := run_success hrun
  cases hr : toRoot a with
  | err => simp [hr] at h1
  | panic => simp [hr] at h1
  | ok o =>
    cases o with
    | none => simp [hr] at h1
    | some r =>
      simp only [hr, Bool.and_eq_true, decide_eq_true_eq] at h1
      exact ⟨r, fun x order ho fuel hf => x.root_eq (h2 x order ho fuel hf) hr, h1.1, clashB_fails h1.2 cfg⟩

end Verif.Base
