import Verif.Lemmas.Parsers
import Verif.Props.Roots

/-!
# C48: the parser manager

`ExecuteRun ev r x`: `x` is a possible outcome of `Execute` of a manager with the events `ev`, called with the root `r`;
`TriggerRun ev name r x` the same for `Trigger`.
-/

namespace Verif.Lexer
open Verif.Patterns

variable {α : Type}

/-- C48: `Execute` yields a result exactly if some event of the name of the root does not fail; the result is that of the first
such event, in the order of the registration. -/
theorem C48_execute (ev : Events α) (r : Root) (res : List (Val α)) :
    ExecuteRun ev r (.ok res) ↔ ∃ l v, ev.get r.name = some l ∧ FirstGood ev l r v ∧ ResultOf v res := by
  constructor
  · intro h
    generalize hy : Out.ok res = y at h
    cases h with
    | err => simp at hy
    | panic => simp at hy
    | ok h =>
      obtain ⟨l, v, h1, h2, rfl⟩ := eventsRun_ok.mp h
      exact ⟨l, v, h1, h2, resultNow_unwrap.mp hy.symm⟩
  · rintro ⟨l, v, h1, h2, h3⟩
    rw [← resultNow_unwrap.mpr h3]
    exact .ok (eventsRun_ok.mpr ⟨l, v, h1, h2, rfl⟩)

/-- C48: `Execute` fails exactly if there is no event of the name of the root, if all of them fail, or (violation) if the first
event that does not fail has nothing but nil as its value. -/
theorem C48_execute_err (ev : Events α) (r : Root) :
    ExecuteRun ev r .err ↔ ev.get r.name = none ∨ (∃ l, ev.get r.name = some l ∧ ∀ e ∈ l, ProgRun ev (e r) .err) ∨
      ∃ l v, ev.get r.name = some l ∧ FirstGood ev l r v ∧ LeadsToNothing v := by
  constructor
  · intro h
    generalize hy : Out.err = y at h
    cases h with
    | panic => simp at hy
    | err h =>
      have := eventsRun_err.mp h
      cases hg : ev.get r.name with
      | none => exact .inl rfl
      | some l => exact .inr (.inl ⟨l, rfl, this l hg⟩)
    | ok h =>
      obtain ⟨l, v, h1, h2, rfl⟩ := eventsRun_ok.mp h
      exact .inr (.inr ⟨l, v, h1, h2, resultNow_unwrap_err.mp hy.symm⟩)
  · rintro (h | ⟨l, h1, h2⟩ | ⟨l, v, h1, h2, h3⟩)
    · exact .err (.none h)
    · exact .err (.some h1 (eventsLoop_err.mpr h2))
    · rw [← resultNow_unwrap_err.mpr h3]
      exact .ok (eventsRun_ok.mpr ⟨l, v, h1, h2, rfl⟩)

/-- C48: the application yields the first value of the result of the manager, and fails without events. -/
theorem C48_application (ev : Option (Events α)) (r : Root) (v : Val α) :
    AppRun ev r (.ok v) ↔ ∃ e l, ev = some e ∧ e ≠ [] ∧ ExecuteRun e r (.ok (v :: l)) := by
  constructor
  · intro h
    generalize hy : Out.ok v = y at h
    cases h with
    | noManager => simp at hy
    | err => simp at hy
    | panic => simp at hy
    | ok h1 h2 =>
      simp at hy; subst hy
      match ev, h1 with
      | some (p :: ps), h1 => simp [managerNow] at h1; subst h1; exact ⟨_, _, rfl, by simp, h2⟩
      | some [], h1 => simp [managerNow] at h1
      | none, h1 => simp [managerNow] at h1
  · rintro ⟨e, l, rfl, h1, h2⟩
    refine .ok (e := e) ?_ h2
    cases e with
    | nil => exact absurd rfl h1
    | cons p ps => rfl

/-- C48 (violation): of a result with several values the application yields only the first one; the others are lost. -/
theorem C48_application_loses (ev : Events α) (r : Root) (v w : Val α) (l : List (Val α)) (es : List (Event α)) (h : ev ≠ [])
    (hg : ev.get r.name = some es) (hf : FirstGood ev es r (.result (v :: w :: l))) : AppRun (some ev) r (.ok v) :=
  (C48_application _ r v).mpr ⟨ev, w :: l, rfl, h, (C48_execute ev r _).mpr ⟨es, _, hg, hf, .many⟩⟩

/-- C48: if nothing of the name of a node of the root is in the other nodes, `Trigger` yields exactly one value for each of the
containers of the node, in their order. -/
theorem C48_trigger_node (ev : Events α) (name : Str) (r : Root) (n : Node) (hn : n ∈ r.nodes) (hname : n.name = name)
    (hother : ∀ m ∈ r.nodes, m ≠ n → ∀ f, ReachNode m f → f.name ≠ name) (res : List (Val α)) :
    TriggerRun ev name r (.ok res) ↔ res ≠ [] ∧ List.Forall₂ (ContainerValue ev name) n.containers res := by
  have hall : ∀ x, NodesScan name r.nodes x → x = .ok (some (.node n)) := by
    intro x hx
    obtain ⟨h1, h2⟩ := hx.scanOk
    cases x with
    | panic => exact h1.elim
    | err => exact absurd hname (h1 _ (.mem hn (.self n)))
    | ok o =>
      cases o with
      | none => exact absurd rfl h2
      | some f =>
        have h3 := hx.top rfl
        cases h3 with
        | @mem _ m _ hm h =>
          by_cases e : m = n
          · subst e
            cases h with
            | self => rfl
            | sub h _ _ => exact absurd hname h
          · exact absurd h.reach.2 (hother m hm e f h.reach.1)
  constructor
  · intro h
    generalize hy : Out.ok res = y at h
    cases h with
    | err => simp at hy
    | nothing => simp at hy
    | rootErr => simp at hy
    | rootPanic => simp at hy
    | nodeErr => simp at hy
    | nodePanic => simp at hy
    | containerErr => simp at hy
    | containerPanic => simp at hy
    | root h => simpa using hall _ h
    | container h => simpa using hall _ h
    | @node _ _ m l h h' =>
      have := hall _ h
      simp at this; subst this
      have : l ≠ [] ∧ res = l := by
        cases l with
        | nil => simp [resultNow] at hy
        | cons a as => simpa [resultNow] using hy
      obtain ⟨h1, rfl⟩ := this
      exact ⟨h1, containersRun_ok.mp h'⟩
  · rintro ⟨h1, h2⟩
    obtain ⟨x, hx, _⟩ := nodesScan_total name r
    have := hall _ hx
    subst this
    have e : resultNow .nil (some res) = .ok res := by
      cases res with
      | nil => exact absurd rfl h1
      | cons a as => rfl
    rw [← e]
    exact .node hx (containersRun_ok.mpr h2)

/-- C48: `Trigger` fails if there is nothing of the name below the root (the root itself does not count). -/
theorem C48_trigger_missing (ev : Events α) (name : Str) (r : Root) (h : ∀ f, ReachNodes r.nodes f → f.name ≠ name)
    (x : Out (List (Val α))) : TriggerRun ev name r x ↔ x = .err := by
  have hall : ∀ x, NodesScan name r.nodes x → x = .err := by
    intro x hx
    obtain ⟨h1, h2⟩ := hx.scanOk
    cases x with
    | panic => exact h1.elim
    | err => rfl
    | ok o =>
      cases o with
      | none => exact absurd rfl h2
      | some f => exact absurd h1.2 (h f h1.1)
  constructor
  · intro h
    cases h with
    | err => rfl
    | nothing => rfl
    | rootErr => rfl
    | nodeErr => rfl
    | containerErr => rfl
    | root h => simpa using hall _ h
    | rootPanic h => simpa using hall _ h
    | node h => simpa using hall _ h
    | nodePanic h => simpa using hall _ h
    | container h => simpa using hall _ h
    | containerPanic h => simpa using hall _ h
  · rintro rfl
    obtain ⟨x, hx, _⟩ := nodesScan_total name r
    have := hall _ hx
    subst this
    exact .err hx

/-- C48: if the events call the manager only for the root they are called with (by `Trigger`) or for roots inside it, then every
run ends, and there is an outcome. -/
theorem C48_ends (ev : Events α) (hev : ∀ name l, ev.get name = some l → ∀ e ∈ l, ∀ r, StaysInside r (e r)) (r : Root) :
    CallEnds ev r.name r ∧ ∃ x, ExecuteRun ev r x := by
  obtain ⟨h1, x, h2⟩ := calls_end hev r r.name
  exact ⟨h1, executeRun_of h2⟩

/-- C48 (violation): an event that calls `Execute` for the root it is called with never ends (in the code: the stack overflows). -/
theorem C48_loop (ev : Events α) (r : Root) (e : Event α) (es : List (Event α)) (k : Out (List (Val α)) → Prog α)
    (hg : ev.get r.name = some (e :: es)) (he : e r = .execute r k) (x : Out (List (Val α))) : ¬ ExecuteRun ev r x := by
  intro h
  have key : ∀ y, ¬ EventsRun ev r.name r y := by
    intro y hy
    have hl : EventsLoop ev (e :: es) r y := by
      cases hy with
      | some h1 h2 => rw [hg] at h1; simp at h1; subst h1; exact h2
      | none h => rw [hg] at h; simp at h
    have main : ∀ {p o}, ProgRun ev p o → p = .execute r k → False := by
      intro p o hp
      refine ProgRun.rec (ev := ev) (motive_1 := fun p _ _ => p = .execute r k → False)
        (motive_2 := fun l u _ _ => u = r → l = e :: es → False) (motive_3 := fun n u _ _ => u = r → n = r.name → False)
        (motive_4 := fun u _ _ => u = r → False)
        (motive_5 := fun _ _ _ _ => True) (motive_6 := fun _ _ _ _ => True) (motive_7 := fun _ _ _ _ => True)
        ?_ ?_ ?_ ?_ ?_ ?_ ?_ ?_ ?_ ?_ ?_ ?_ ?_ ?_ ?_ ?_ ?_ ?_ ?_ ?_ ?_ ?_ ?_ ?_ ?_ ?_ ?_ ?_ ?_ ?_ ?_ ?_ ?_ hp
      all_goals try (intros; exact True.intro)
      · intro o h; simp at h
      · intro u k' x o _ _ _ ih _ h; simp at h; exact ih h.1
      · intro u k' _ ih h; simp at h; exact ih h.1
      · intro n u k' x o _ _ _ _ _ h; simp at h
      · intro n u k' _ _ h; simp at h
      · intro u _ h; simp at h
      · intro e' es' u x _ _ ih _ hu h; simp at h; exact ih (by rw [h.1, hu]; exact he)
      · intro e' es' u _ ih hu h; simp at h; exact ih (by rw [h.1, hu]; exact he)
      · intro e' es' u v _ ih hu h; simp at h; exact ih (by rw [h.1, hu]; exact he)
      · intro n u l x h1 _ ih hu hn; subst hu hn; rw [hg] at h1; simp at h1; exact ih rfl h1.symm
      · intro n u h hu hn; subst hu hn; rw [hg] at h; simp at h
      · intro u _ ih hu; exact ih hu (by rw [hu])
      · intro u _ ih hu; exact ih hu (by rw [hu])
      · intro u x _ ih hu; exact ih hu (by rw [hu])
    cases hl with
    | fail h1 _ => exact main h1 he
    | panic h1 => exact main h1 he
    | ok h1 => exact main h1 he
  cases h with
  | err h => exact key _ h
  | panic h => exact key _ h
  | ok h => exact key _ h

/-! A root with the children `x` (a token with the rule `R`) and `y` of the name `a`. -/
def pxInner : Root := .mk (lit "x") (lit "a") [.mk (lit "R") [.mk (lit "x") (lit "R") none]]
def pxNode : Node := .mk (lit "a") [.mk (lit "x") (lit "a") (some pxInner), .mk (lit "y") (lit "a") none]
def pxRoot : Root := .mk (lit "xy") (lit "root") [pxNode]

/-- Return the values of the call, or fail. -/
def pxReturn : Out (List (Val Nat)) → Prog Nat
  | .ok l => .done (.ok (.result l))
  | _ => .done .err

/-- For `root`: an event that fails, an event that collects the values of `a`, and a third one; for `a` the text of the rule. -/
def pxEvents : Events Nat := [(lit "root", [fun _ => .done .err, fun r => .trigger (lit "a") r pxReturn, fun _ => .done (.ok (.other 0))]),
  (lit "a", [fun r => .trigger (lit "R") r pxReturn])]

theorem pxReturn_stays (r : Root) (x : Out (List (Val Nat))) : StaysInside r (pxReturn x) := by
  cases x <;> exact .done _

example : (∀ name l, pxEvents.get name = some l → ∀ e ∈ l, ∀ r, StaysInside r (e r)) ∧
    ExecuteRun pxEvents pxRoot (.ok [.text (lit "x"), .text (lit "y")]) := by
  constructor
  · intro name l h e he r
    unfold Events.get pxEvents at h
    by_cases h1 : lit "root" = name
    · simp [h1] at h
      subst h
      simp at he
      rcases he with rfl | rfl | rfl
      · exact .done _
      · exact .trigger (.inl rfl) (pxReturn_stays r)
      · exact .done _
    · by_cases h2 : lit "a" = name
      · simp [h1, h2] at h
        subst h
        simp at he
        subst he
        exact .trigger (.inl rfl) (pxReturn_stays r)
      · simp [h1, h2] at h
  · have one : ∀ (r : Root) (n : Node), r.nodes = [n] → ∀ m ∈ r.nodes, m ≠ n → ∀ f, ReachNode m f → f.name ≠ n.name := by
      intro r n hr m hm hne
      rw [hr] at hm
      simp at hm
      exact absurd hm hne
    have inner : ProgRun pxEvents (.trigger (lit "R") pxInner pxReturn) (.ok (.result [.text (lit "x")])) := by
      refine .trigger (x := .ok [.text (lit "x")]) ?_ (by simp) (.done _)
      exact (C48_trigger_node pxEvents (lit "R") pxInner (.mk (lit "R") [.mk (lit "x") (lit "R") none]) (by simp [pxInner, Root.nodes])
        rfl (one _ _ rfl) _).mpr ⟨by simp, .cons (.text rfl) .nil⟩
    have outer : ProgRun pxEvents (.trigger (lit "a") pxRoot pxReturn) (.ok (.result [.text (lit "x"), .text (lit "y")])) := by
      refine .trigger (x := .ok [.text (lit "x"), .text (lit "y")]) ?_ (by simp) (.done _)
      refine (C48_trigger_node pxEvents (lit "a") pxRoot pxNode (by simp [pxRoot, Root.nodes])
        rfl (one _ _ rfl) _).mpr ⟨by simp, .cons ?_ (.cons (.text rfl) .nil)⟩
      exact .single (r := pxInner) rfl rfl ⟨[], _, [], rfl, by simp, inner⟩
    exact (C48_execute pxEvents pxRoot _).mpr ⟨_, _, rfl, ⟨[_], _, [_], rfl, by simp; exact .done _, outer⟩, .many⟩

end Verif.Lexer
