import Verif.Lemmas.TextRefs3

/-!
# The includes and the links
-/

set_option maxRecDepth 10000

namespace Verif.Text
open Verif.Regex Verif.Patterns Verif.Lexer

theorem mapOut_map' {α β γ : Type} (f : β → Out γ) (g : α → β) : ∀ l : List α, mapOut f (l.map g) = mapOut (fun x => f (g x)) l
  | [] => rfl
  | a :: l => by simp only [List.map_cons, mapOut]; rw [mapOut_map' f g l]

/-- One include, from its name and the text between the quotes. -/
def incOf (x : Str × Str) : Out (Str × FilePaths) := do
  let ps := splitSep semiC [] x.2
  if ps.length > 3 then .err
  else do
    let r ← index ps 0
    let t ← index ps 1
    let p ← filePathsNow r t
    if x.1 = [] then .err else .ok (x.1, p)

def incLoop : List (Str × Str) → GoMap FilePaths → Out (GoMap FilePaths)
  | [], mp => .ok mp
  | x :: l, mp => do
    let y ← incOf x
    incLoop l (mp.set y.1 y.2)

theorem includeLoop_eq : ∀ (ms : List Regex.M) (mp : GoMap FilePaths), includeLoop ms mp = incLoop (ms.map (fun m => (m.group 1, m.group 2))) mp
  | [], _ => rfl
  | m :: ms, mp => by
    simp only [includeLoop, List.map_cons, incLoop]
    rw [show includeOf m = incOf (m.group 1, m.group 2) from rfl]
    cases incOf (m.group 1, m.group 2) with
    | ok y => exact includeLoop_eq ms _
    | err => rfl
    | panic => rfl

variable {lead : Str} {l : StmtsT} {dot : UInt8}

theorem toReferences_eq (hl : LeadT lead) (h : l.Ok) (hd : dot ≠ 10) (hd' : letter dot = false) :
    toReferences (lead ++ stmtsTextWith dot l) = (do
      let inc ← incLoop (l.filterMap (fun x => inclKind x.1)) GoMap.empty
      let rs ← mapOut (fun w => linkNow inc w.1 w.2.1 w.2.2) (refsOf l)
      let ps ← mapOut (fun w => linkNow inc w.1 w.2.1 w.2.2) (replsOf l)
      return ⟨if rs = [] then none else some rs, if ps = [] then none else some ps⟩) := by
  have e1 := find_includes hl h hd'
  have e2 := find_references hl h hd hd'
  have e3 := find_replaces hl h hd hd'
  unfold toReferences includes refLinks replLinks
  rw [includeLoop_eq, e1]
  cases incLoop (l.filterMap (fun x => inclKind x.1)) GoMap.empty with
  | err => rfl
  | panic => rfl
  | ok inc =>
    simp only [Out.bind_ok]
    have f2 := mapOut_map' (fun w : Str × Str × Str => linkNow inc w.1 w.2.1 w.2.2) (fun m : Regex.M => (m.group 2, m.group 1, m.group 3)) (findAll reReference (lead ++ stmtsTextWith dot l))
    have f3 := mapOut_map' (fun w : Str × Str × Str => linkNow inc w.1 w.2.1 w.2.2) (fun m : Regex.M => (m.group 1, m.group 3, m.group 2)) (findAll reReplace (lead ++ stmtsTextWith dot l))
    rw [e2] at f2
    rw [e3] at f3
    rw [f2, f3]
    cases mapOut (fun m : Regex.M => linkNow inc (m.group 2) (m.group 1) (m.group 3)) (findAll reReference (lead ++ stmtsTextWith dot l)) with
    | err => rfl
    | panic => rfl
    | ok rs =>
      simp only [Out.bind_ok]
      cases mapOut (fun m : Regex.M => linkNow inc (m.group 1) (m.group 3) (m.group 2)) (findAll reReplace (lead ++ stmtsTextWith dot l)) <;> rfl

theorem semis_joined : ∀ {ps : List Str}, ps ≠ [] → withSemicolons ps = joined [semiC] ps
  | [], h => absurd rfl h
  | [p], _ => by simp [withSemicolons, joined]
  | p :: q :: l, _ => by
    rw [joined_cons (by simp), ← semis_joined (ps := q :: l) (by simp)]
    simp only [withSemicolons, show lit ";" = [semiC] by decide]

theorem semis_split {ps : List Str} (hne : ps ≠ []) (h : ∀ p ∈ ps, 59 ∉ p) : splitSep semiC [] (withSemicolons ps) = ps := by
  rw [semis_joined hne]
  refine split_joined hne ?_
  intro p hp hi
  refine h p hp ?_
  simp only [List.dropLast_singleton, List.append_nil] at hi
  exact hi.subset (by simp [semiC])

/-- What an include gives. -/
theorem incOf_stmt {name : Str} {ps : List Str} (hn : name ≠ []) (hne : ps ≠ []) (h : ∀ p ∈ ps, 59 ∉ p) :
    incOf (name, withSemicolons ps) = if ps.length > 3 then .err else match ps with
      | r :: t :: _ => if r = [] then .err else if t = [] then .err else .ok (name, ⟨r, t⟩)
      | _ => .panic := by
  unfold incOf
  simp only [semis_split hne h]
  split
  · rfl
  · cases ps with
    | nil => exact absurd rfl hne
    | cons r ps =>
      cases ps with
      | nil => rfl
      | cons t o =>
        simp only [index, List.getElem?_cons_zero, List.getElem?_cons_succ, Out.bind_ok, filePathsNow]
        by_cases hr : r = []
        · simp [hr, Out.bind_err]
        · by_cases ht : t = []
          · simp [hr, ht, Out.bind_err]
          · simp [hr, ht, hn]

theorem tokenName_ne {n : Str} (h : TokenName n) : n ≠ [] := by
  obtain ⟨c, u, rfl, _⟩ := h; simp

theorem incLoop_append : ∀ (a b : List (Str × Str)) (mp : GoMap FilePaths), incLoop (a ++ b) mp = (do let m ← incLoop a mp; incLoop b m)
  | [], b, mp => rfl
  | x :: a, b, mp => by
    simp only [List.cons_append, incLoop]
    cases incOf x with
    | ok y => exact incLoop_append a b _
    | err => rfl
    | panic => rfl

/-- The includes of a well written text. -/
theorem incLoop_fine : ∀ (l : StmtsT) (mp : GoMap FilePaths), l.Ok → IncludesFine l →
    ∃ m, incLoop (l.filterMap (fun x => inclKind x.1)) mp = .ok m ∧
      ∀ n, (¬ Declared l n → m n = mp n) ∧ (Declared l n → ∃ p o, m n = some p ∧ LastInclude l n (p.rules :: p.tokens :: o)) := by
  intro l
  induction l with
  | nil =>
    intro mp _ _
    refine ⟨mp, rfl, fun n => ⟨fun _ => rfl, ?_⟩⟩
    rintro ⟨x, hx, _⟩; cases hx
  | cons x l ih =>
    intro mp hok hf
    have ih' := fun mp => ih mp (fun y hy => hok y (by simp [hy])) (fun y hy => hf y (by simp [hy]))
    obtain ⟨s, g⟩ := x
    have dec : ∀ n, Declared ((s, g) :: l) n ↔ (∃ g1 g2 ps, s = .incl g1 n g2 ps) ∨ Declared l n := by
      intro n
      simp [Declared]
    have last : ∀ n ps, LastInclude l n ps → LastInclude ((s, g) :: l) n ps := by
      rintro n ps ⟨a, g1, g2, g', b, e, hb⟩
      exact ⟨(s, g) :: a, g1, g2, g', b, by rw [e]; rfl, hb⟩
    by_cases hs : ∃ g1 n g2 ps, s = .incl g1 n g2 ps
    · obtain ⟨g1, n0, g2, ps, rfl⟩ := hs
      obtain ⟨⟨a1, a2, a3, a4, a5, a6⟩, _⟩ := hok (.incl g1 n0 g2 ps, g) (List.mem_cons_self ..)
      obtain ⟨r, t, o, rfl, ho, hr, ht⟩ := hf (.incl g1 n0 g2 ps, g) (List.mem_cons_self ..) g1 n0 g2 ps rfl
      have hinc : incOf (n0, withSemicolons (r :: t :: o)) = .ok (n0, ⟨r, t⟩) := by
        rw [incOf_stmt (tokenName_ne a3.1) a5 (fun p hp => (a6 p hp).2.1)]
        rw [if_neg (by simp only [List.length_cons]; omega)]
        simp [hr, ht]
      obtain ⟨m, hm, hall⟩ := ih' (mp.set n0 ⟨r, t⟩)
      refine ⟨m, ?_, ?_⟩
      · rw [List.filterMap_cons_some (b := (n0, withSemicolons (r :: t :: o))) (by rfl)]
        simp only [incLoop, hinc, Out.bind_ok]
        exact hm
      · intro n
        constructor
        · intro hn
          rw [dec] at hn
          have h1 : n ≠ n0 := by
            rintro rfl; exact hn (.inl ⟨_, _, _, rfl⟩)
          rw [(hall n).1 (fun h => hn (.inr h))]
          simp [GoMap.set, h1]
        · intro hn
          by_cases hl : Declared l n
          · obtain ⟨p, o, h1, h2⟩ := (hall n).2 hl
            exact ⟨p, o, h1, last _ _ h2⟩
          · rw [dec] at hn
            rcases hn with ⟨k1, k2, ps, e⟩ | hn
            · simp only [StmtT.incl.injEq] at e
              obtain ⟨rfl, rfl, rfl, rfl⟩ := e
              refine ⟨⟨r, t⟩, o, ?_, [], g1, g2, g, l, rfl, ?_⟩
              · rw [(hall n0).1 hl]; simp [GoMap.set]
              · intro x hx k1 k2 ps e
                exact hl ⟨x, hx, k1, k2, ps, e⟩
            · exact absurd hn hl
    · have hk : inclKind s = none := by
        cases s with
        | incl g1 n g2 ps => exact absurd ⟨g1, n, g2, ps, rfl⟩ hs
        | refr => rfl
        | repl => rfl
      have dec' : ∀ n, Declared ((s, g) :: l) n ↔ Declared l n := by
        intro n
        rw [dec]
        constructor
        · rintro (⟨g1, g2, ps, e⟩ | h)
          · exact absurd ⟨g1, n, g2, ps, e⟩ hs
          · exact h
        · exact .inr
      obtain ⟨m, hm, hall⟩ := ih' mp
      refine ⟨m, ?_, ?_⟩
      · rw [List.filterMap_cons_none (by exact hk)]; exact hm
      · intro n
        rw [dec']
        refine ⟨(hall n).1, fun hn => ?_⟩
        obtain ⟨p, o, h1, h2⟩ := (hall n).2 hn
        exact ⟨p, o, h1, last _ _ h2⟩

/-- Names which occur in links are not empty. -/
theorem links_names (h : l.Ok) : (∀ w ∈ refsOf l, w.2.1 ≠ [] ∧ w.2.2 ≠ []) ∧ ∀ w ∈ replsOf l, w.2.1 ≠ [] ∧ w.2.2 ≠ [] := by
  constructor
  · intro w hw
    obtain ⟨⟨s, g⟩, hx, e⟩ := List.mem_filterMap.mp hw
    have ho := (h _ hx).1
    cases s with
    | incl => simp at e
    | repl => simp at e
    | refr g1 loc g2 inc tok =>
      simp only [Option.some.injEq] at e
      subst e
      exact ⟨tokenName_ne ho.2.2.1.1, tokenName_ne ho.2.2.2.2.2.2.1⟩
  · intro w hw
    obtain ⟨⟨s, g⟩, hx, e⟩ := List.mem_filterMap.mp hw
    have ho := (h _ hx).1
    cases s with
    | incl => simp at e
    | refr => simp at e
    | repl g1 inc tok g2 loc =>
      simp only [Option.some.injEq] at e
      subst e
      exact ⟨tokenName_ne ho.2.2.2.2.2.2.1, tokenName_ne ho.2.2.2.1.1⟩

theorem links_ok {inc : GoMap FilePaths} : ∀ {ws : List (Str × Str × Str)}, (∀ w ∈ ws, w.2.1 ≠ [] ∧ w.2.2 ≠ []) →
    (∀ w ∈ ws, ∃ p o, inc w.1 = some p ∧ LastInclude l w.1 (p.rules :: p.tokens :: o)) →
    ∃ rs, mapOut (fun w => linkNow inc w.1 w.2.1 w.2.2) ws = .ok rs ∧ List.Forall₂ (fun w r => LinkIs l w.1 w.2.1 w.2.2 r) ws rs
  | [], _, _ => ⟨[], rfl, .nil⟩
  | w :: ws, h1, h2 => by
    obtain ⟨rs, e, hf⟩ := links_ok (ws := ws) (fun x hx => h1 x (by simp [hx])) (fun x hx => h2 x (by simp [hx]))
    obtain ⟨p, o, hp, hl⟩ := h2 w (by simp)
    obtain ⟨n1, n2⟩ := h1 w (by simp)
    have e1 : linkNow inc w.1 w.2.1 w.2.2 = .ok ⟨w.1, p, w.2.1, w.2.2⟩ := by simp [linkNow, n1, n2, hp]
    refine ⟨⟨w.1, p, w.2.1, w.2.2⟩ :: rs, ?_, .cons ⟨rfl, rfl, rfl, o, hl⟩ hf⟩
    simp only [mapOut, e1, e, Out.bind_ok]; rfl

theorem links_err {inc : GoMap FilePaths} : ∀ {ws : List (Str × Str × Str)}, (∃ w ∈ ws, inc w.1 = none) →
    mapOut (fun w => linkNow inc w.1 w.2.1 w.2.2) ws = .err
  | [], h => by simp at h
  | w :: ws, h => by
    simp only [mapOut]
    by_cases hw : inc w.1 = none
    · have : linkNow inc w.1 w.2.1 w.2.2 = .err := by
        unfold linkNow
        split
        · rfl
        split
        · rfl
        rw [hw]
      rw [this]; rfl
    · have hr := links_err (inc := inc) (ws := ws) (by
        obtain ⟨x, hx, e⟩ := h
        rcases List.mem_cons.mp hx with rfl | hx
        · exact absurd e hw
        · exact ⟨x, hx, e⟩)
      rw [hr]
      have : linkNow inc w.1 w.2.1 w.2.2 ≠ .panic := by
        unfold linkNow
        repeat' split
        all_goals simp
      cases h1 : linkNow inc w.1 w.2.1 w.2.2 with
      | ok x => rfl
      | err => rfl
      | panic => exact absurd h1 this

theorem links_no_panic {inc : GoMap FilePaths} (ws : List (Str × Str × Str)) : mapOut (fun w => linkNow inc w.1 w.2.1 w.2.2) ws ≠ .panic := by
  induction ws with
  | nil => simp [mapOut]
  | cons w ws ih =>
    simp only [mapOut]
    have : linkNow inc w.1 w.2.1 w.2.2 ≠ .panic := by
      unfold linkNow
      repeat' split
      all_goals simp
    cases h1 : linkNow inc w.1 w.2.1 w.2.2 with
    | panic => exact absurd h1 this
    | err => simp [Out.bind_err]
    | ok x =>
      cases h2 : mapOut (fun w => linkNow inc w.1 w.2.1 w.2.2) ws with
      | panic => exact absurd h2 ih
      | err => simp [Out.bind_err, Out.bind_ok]
      | ok y => simp [Out.bind_ok]

end Verif.Text
