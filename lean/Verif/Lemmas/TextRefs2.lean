import Verif.Lemmas.TextRules2
import Verif.Spec.TextRefs

/-!
# Lemmas about the texts of references
-/

set_option maxRecDepth 10000

namespace Verif.Text
open Verif.Regex Verif.Patterns Verif.Lexer

/-! ## The blanks in front of a match do not matter -/

def M.key (m : M) : Str × List (Nat × Str) := (m.rest, m.caps)

theorem matchAt_lazy {p : Cls} {L : Re} {c : UInt8} {s : Str} :
    (matchAt (.seq (.lazy p) L) (c :: s)).map M.key =
      match matchAt L (c :: s) with
      | some m => some (M.key m)
      | none => if p c then (matchAt (.seq (.lazy p) L) s).map M.key else none := by
  unfold matchAt
  simp only [run, lazyRun]
  by_cases hp : p c = true
  · simp only [hp, if_true, List.flatMap_cons, List.flatMap_map]
    cases hL : run L (c :: s) with
    | cons m l => simp [M.key]
    | nil =>
      simp only [List.map_nil, List.nil_append, List.head?_nil]
      generalize lazyRun p s = ls
      induction ls with
      | nil => rfl
      | cons x ls ih =>
        simp only [List.flatMap_cons]
        cases hx : run L x.rest with
        | nil => simpa [hx] using ih
        | cons y l => simp [M.key]
  · simp only [hp]
    cases hL : run L (c :: s) with
    | cons m l => simp [M.key, hL]
    | nil => simp [hL]

theorem matchAt_lazy_nil {p : Cls} {L : Re} : (matchAt (.seq (.lazy p) L) []).map M.key = (matchAt L []).map M.key := by
  unfold matchAt
  simp only [run, lazyRun]
  cases hL : run L [] with
  | nil => simp [hL]
  | cons m l => simp [M.key, hL]

theorem find_lazy {p : Cls} {L : Re} : ∀ {s : Str}, (find (.seq (.lazy p) L) s).map (fun x => M.key x.2) = (find L s).map (fun x => M.key x.2)
  | [] => by
    have := matchAt_lazy_nil (p := p) (L := L)
    simp only [find, Option.map_map]
    simpa [Function.comp_def] using this
  | c :: s => by
    have h := matchAt_lazy (p := p) (L := L) (c := c) (s := s)
    have ih := find_lazy (p := p) (L := L) (s := s)
    have hz : ∀ m, matchAt (.seq (.lazy p) L) s = some m → find (.seq (.lazy p) L) s = some (0, m) := fun m hm => find_zero hm
    simp only [find]
    cases h1 : matchAt L (c :: s) with
    | some m =>
      rw [h1] at h
      cases h2 : matchAt (.seq (.lazy p) L) (c :: s) with
      | none => rw [h2] at h; simp at h
      | some k => rw [h2] at h; simpa using h
    | none =>
      rw [h1] at h
      simp only at h
      cases h2 : matchAt (.seq (.lazy p) L) (c :: s) with
      | none => simpa [Function.comp_def] using ih
      | some k =>
        rw [h2] at h
        by_cases hp : p c = true
        · simp only [hp, if_true] at h
          cases h3 : matchAt (.seq (.lazy p) L) s with
          | none => rw [h3] at h; simp at h
          | some j =>
            rw [h3] at h
            rw [hz j h3] at ih
            simp only [Option.map_some, Option.some.injEq] at h ih ⊢
            rw [h, Option.map_map]
            simpa [Function.comp_def] using ih
        · simp [hp] at h

theorem scan_lazy {p : Cls} {L : Re} (hn : L.needs = true) : ∀ (n : Nat) {s : Str} {a a' : Bool}, s.length ≤ n →
    (scan (.seq (.lazy p) L) a s).map M.key = (scan L a' s).map M.key := by
  have hn' : (Re.seq (.lazy p) L).needs = true := by simp [Re.needs, hn]
  intro n
  induction n with
  | zero =>
    intro s a a' h
    have : s = [] := List.length_eq_zero_iff.mp (by omega)
    subst this
    rw [scan_fail_nil hn, scan_fail_nil hn']
  | succ n ih =>
    intro s a a' h
    have hf := find_lazy (p := p) (L := L) (s := s)
    cases h1 : find L s with
    | none =>
      rw [h1] at hf
      have h2 : find (.seq (.lazy p) L) s = none := by simpa using hf
      rw [scan_none h1, scan_none h2]
    | some x =>
      obtain ⟨i, m⟩ := x
      rw [h1] at hf
      cases h2 : find (.seq (.lazy p) L) s with
      | none => rw [h2] at hf; simp at hf
      | some y =>
        obtain ⟨j, k⟩ := y
        rw [h2] at hf
        simp only [Option.map_some, Option.some.injEq] at hf
        obtain ⟨u, v, e1, e2, e3⟩ := find_some h1
        obtain ⟨u', v', e1', e2', e3'⟩ := find_some h2
        have hm : m.text ≠ [] := needs_ne hn e3
        have hk : k.text ≠ [] := needs_ne hn' e3'
        rw [scan_some h1 hm, scan_some h2 hk]
        have hr : k.rest = m.rest := congrArg Prod.fst hf
        have hl : m.rest.length ≤ n := by
          have := run_text e3
          have hlen := congrArg List.length this
          have hlen2 := congrArg List.length e1
          simp only [List.length_append] at hlen hlen2
          have : 0 < m.text.length := List.length_pos_iff.mpr hm
          omega
        simp only [List.map_cons]
        rw [hf, hr, ih hl]

/-! ## Texts without a word -/

/-- No match of a text beginning with the word begins in `t`, whatever follows it. -/
def Skippable (w t : Str) : Prop := ∀ p1 p2, p1 ++ p2 = t → p2 ≠ [] → ∀ v, ¬ w <+: p2 ++ v

theorem skippable_nil (w : Str) : Skippable w [] := by
  intro p1 p2 h hne
  simp only [List.append_eq_nil_iff] at h
  exact absurd h.2 hne

theorem Skippable.suffix {w a b : Str} (h : Skippable w (a ++ b)) : Skippable w b := by
  intro p1 p2 e hne v
  exact h (a ++ p1) p2 (by rw [List.append_assoc, e]) hne v

theorem skippable_of {w t : Str} (h1 : ¬ w <:+: t) (h2 : ∀ c, t.getLast? = some c → c ∉ w) : Skippable w t := by
  intro p1 p2 e hne v hp
  obtain ⟨q, hq⟩ := hp
  rcases List.append_eq_append_iff.mp hq with ⟨k, hk, _⟩ | ⟨k, hk, _⟩
  · exact h1 ⟨p1, k, by rw [List.append_assoc, ← hk, e]⟩
  · obtain ⟨c, hc⟩ : ∃ c, p2.getLast? = some c := by
      cases hl : p2.getLast? with
      | none => exact absurd (List.getLast?_eq_none_iff.mp hl) hne
      | some c => exact ⟨c, rfl⟩
    have hcw : c ∈ w := by rw [hk]; exact List.mem_append_left _ (List.mem_of_getLast? hc)
    refine h2 c ?_ hcw
    rw [← e, List.getLast?_append, hc]; rfl

theorem infix_sep {w a b : Str} {c : UInt8} (hc : c ∉ w) (ha : ¬ w <:+: a) (hb : ¬ w <:+: b) : ¬ w <:+: a ++ c :: b := by
  rintro ⟨p, q, h⟩
  rw [List.append_assoc] at h
  rcases List.append_eq_append_iff.mp h with ⟨k, hk, hk2⟩ | ⟨k, hk, hk2⟩
  · -- `p` is a prefix of `a`
    rcases List.append_eq_append_iff.mp hk2 with ⟨j, hj, hj2⟩ | ⟨j, hj, hj2⟩
    · exact ha ⟨p, j, by rw [List.append_assoc, ← hj, hk]⟩
    · cases j with
      | nil => exact ha ⟨p, [], by rw [hj, hk]; simp⟩
      | cons d j =>
        simp only [List.cons_append, List.cons.injEq] at hj2
        exact hc (by rw [hj, hj2.1]; simp)
  · cases k with
    | nil =>
      simp only [List.nil_append] at hk2
      cases w with
      | nil => exact ha ⟨[], a, by simp⟩
      | cons d w =>
        simp only [List.cons_append, List.cons.injEq] at hk2
        exact hc (by rw [hk2.1]; simp)
    | cons d k =>
      simp only [List.cons_append, List.cons.injEq] at hk2
      exact hb ⟨k, q, by rw [List.append_assoc]; exact hk2.2.symm⟩

theorem infix_blank {w b t : Str} (hw : ∀ c, c = 32 ∨ c = 9 ∨ c = 13 ∨ c = 10 → c ∉ w) (hb : Blank b) (hne : w ≠ []) (ht : ¬ w <:+: t) : ¬ w <:+: b ++ t := by
  induction b with
  | nil => exact ht
  | cons c b ih =>
    have := infix_sep (w := w) (a := []) (b := b ++ t) (c := c) (hw c (hb c (by simp))) (by simpa using hne) (ih (fun d hd => hb d (by simp [hd])))
    simpa using this

theorem infix_gap {w a b t : Str} (hw : ∀ c, c = 32 ∨ c = 9 ∨ c = 13 ∨ c = 10 → c ∉ w) (hb : Blank b) (hbn : b ≠ []) (hne : w ≠ [])
    (ha : ¬ w <:+: a) (ht : ¬ w <:+: t) : ¬ w <:+: a ++ (b ++ t) := by
  cases b with
  | nil => exact absurd rfl hbn
  | cons c b =>
    exact infix_sep (hw c (hb c (by simp))) ha (infix_blank hw (fun d hd => hb d (by simp [hd])) hne ht)

/-! ## Scanning the statements -/

theorem f_keyword {w s : Str} {l : List Re} (h : ¬ w <+: s) : F (.all (.text w :: l)) s := by
  refine f_seq_left ?_
  unfold F
  rw [List.eq_nil_iff_forall_not_mem]
  intro m hm
  have : ∀ (w s : Str) (m : Regex.M), m ∈ run (Re.text w) s → w <+: s := by
    intro w
    induction w with
    | nil => intro s m _; exact List.nil_prefix
    | cons c w ih =>
      intro s m hm
      simp only [Re.text, run, List.mem_flatMap, List.mem_map] at hm
      obtain ⟨k, hk, k', hk', rfl⟩ := hm
      cases s with
      | nil => simp at hk
      | cons d s =>
        simp only at hk
        split at hk
        · rename_i hd
          simp at hk hd
          subst hk
          rw [hd]
          exact List.cons_prefix_cons.mpr ⟨rfl, ih _ _ hk'⟩
        · simp at hk
  exact h (this _ _ _ hm)

theorem scan_skippable {w u v : Str} {l : List Re} {a : Bool} (hn : (Re.all (.text w :: l)).needs = true) (h : Skippable w u) :
    ∃ a', scan (.all (.text w :: l)) a (u ++ v) = scan (.all (.text w :: l)) a' v := by
  cases u with
  | nil => exact ⟨a, rfl⟩
  | cons c u =>
    exact ⟨false, scan_skip_append hn (.inl (by simp)) (fun u1 u2 e hne => f_keyword (h u1 u2 e hne v))⟩

theorem stmts_stops (dot : UInt8) (l : StmtsT) : Stops ws (stmtsTextWith dot l) := by
  cases l with
  | nil => exact stops_nil _
  | cons x l =>
    obtain ⟨s, g⟩ := x
    have k1 : lit "include" = [105, 110, 99, 108, 117, 100, 101] := by decide
    have k2 : lit "reference" = [114, 101, 102, 101, 114, 101, 110, 99, 101] := by decide
    have k3 : lit "replace" = [114, 101, 112, 108, 97, 99, 101] := by decide
    cases s <;> simp [stmtsTextWith, StmtT.textWith, k1, k2, k3] <;> decide

theorem scan_stmts {β : Type} {w : Str} {rl : List Re} {f : Regex.M → β} {dot : UInt8} {kind : StmtT → Option β}
    (hn : (Re.all (.text w :: rl)).needs = true) : ∀ (l : StmtsT) (pre : Str) (a : Bool)
    (_ : ∀ x ∈ l, kind x.1 = none → Skippable w (x.1.textWith dot ++ x.2))
    (_ : ∀ x ∈ l, Skippable w x.2)
    (_ : ∀ x ∈ l, ∀ b, kind x.1 = some b → ∀ v, Stops ws v → ∃ m, Y (.all (.text w :: rl)) (x.1.textWith dot ++ (x.2 ++ v)) m ∧ f m = b ∧
      ∃ g g', x.2 = g ++ g' ∧ m.rest = g' ++ v)
    (_ : Skippable w pre),
    (scan (.all (.text w :: rl)) a (pre ++ stmtsTextWith dot l)).map f = l.filterMap (fun x => kind x.1) := by
  intro l
  induction l with
  | nil =>
    intro pre a _ _ _ hp
    obtain ⟨a', h⟩ := scan_skippable (v := []) (a := a) hn hp
    rw [show stmtsTextWith dot [] = [] from rfl, h, scan_fail_nil hn]; rfl
  | cons x l ih =>
    intro pre a h1 h2 h3 hp
    have e : stmtsTextWith dot (x :: l) = x.1.textWith dot ++ (x.2 ++ stmtsTextWith dot l) := by simp [stmtsTextWith]
    have ih' := fun pre a => ih pre a (fun y hy => h1 y (by simp [hy])) (fun y hy => h2 y (by simp [hy])) (fun y hy => h3 y (by simp [hy]))
    obtain ⟨a', hs⟩ := scan_skippable (v := stmtsTextWith dot (x :: l)) (a := a) hn hp
    rw [hs, e]
    cases hk : kind x.1 with
    | none =>
      rw [List.filterMap_cons_none (by simpa using hk), ← List.append_assoc]
      exact ih' _ _ (h1 x (by simp) hk)
    | some b =>
      rw [List.filterMap_cons_some (by simpa using hk)]
      obtain ⟨m, hy, hf, g, g', hg, hr⟩ := h3 x (by simp) b hk (stmtsTextWith dot l) (stmts_stops dot l)
      rw [scan_hit hn hy, List.map_cons, hf, hr]
      refine congrArg _ (ih' _ _ ?_)
      have := h2 x (by simp)
      rw [hg] at this
      exact this.suffix

end Verif.Text
