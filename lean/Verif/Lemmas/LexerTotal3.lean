import Verif.Lemmas.LexerTotal2

/-!
# Termination of guarded grammars: one text, one class, all states
-/

namespace Verif.Lexer
open Verif.Patterns Verif.Cardinality

section
variable {g : PathEnv} {env : Env} {v : Str → Option LineMatch} {deps : List Element} {rank first : Str → Nat}

theorem elem_of_best {e : Element} (hn : e.not = []) {s : Str} {ch : Bool} {st : St}
    (h : EndsAt (fun n => bestLoop (fun l => lineToMatches env n l deps s ch) e.must 0 ⟨0, none, none⟩) st) :
    EndsAt (fun n => elementToToken env n e deps s ch) st := by
  refine EndsAt.of_succ ?_
  simp only [elementToToken]
  refine EndsAt.bind (F := fun n => elementToTokenContent env n e deps s ch)
    (fun n m hnm => (mono env n m hnm).content _ _ _ _) (fun _ => Mon.const _) ?_ ?_
  · refine EndsAt.of_succ ?_
    simp only [elementToTokenContent]
    refine EndsAt.bind (F := fun n => bestLineToMatches env n e.must deps s ch) (mon_best _ _ _ _) ?_ ?_ ?_
    · intro a n m hnm
      cases a with
      | none => exact M.Le.refl _
      | some a =>
        dsimp only
        split
        · exact M.Le.refl _
        · exact M.Le.bind (mon_best _ _ _ _ n m hnm) (fun _ => M.Le.refl _)
    · refine EndsAt.of_succ ?_
      simp only [bestLineToMatches]
      refine EndsAt.bind (F := fun n => bestLoop (fun l => lineToMatches env n l deps s ch) e.must 0 ⟨0, none, none⟩) ?_
        (fun _ => Mon.const _) h (fun _ _ _ _ => .pure)
      intro n m hnm
      exact bestLoop_mono (fun l => mon_line _ _ _ _ n m hnm) _ _ _
    · intro n a s1 _
      cases a with
      | none => exact .pure
      | some a =>
        dsimp only
        simp only [hn, List.isEmpty_nil, if_true]
        exact .pure
  · intro n a s1 _
    by_cases hn : e.name = []
    · simp only [hn, if_true]; exact .lift
    · simp only [hn, if_false]; exact .pure

variable (H : Guarded g env v deps rank first)
include H

/-- All tokens end at the shorter texts: so do all the blocks. -/
theorem Guarded.block_short {k : Nat} (hshort : ∀ r : Str, r.length < k → ∀ t ∈ g.tokens.list, EndsTok g env deps r t) {stack : List Str} (hs : StackOk g stack)
    {parent : Str} {n : Nat} {e : GElement} {c : PContainer} (h : UnfC g stack parent n e c) (hr : ∀ r, e.content = .rule r → RuleWF r)
    (r : Str) (hrk : r.length < k) (ch nx : Bool) (st : St) (hst : st.canPrefix = false) :
    EndsAt (fun n => containerToBlockMatch env n c deps r ch nx) st := by
  refine block_upto H.chans H.firsts (A := fun _ => True) (H.fetchWithin (fun _ _ _ _ => trivial)) (H.contWithinTrue h) (k - 1) ?_ r (by omega) ch nx st hst
  intro s hs' nx st hst
  refine H.cont_ends hs h hr ?_ nx st hst
  intro u hu _ r hr
  refine hshort r ?_ u hu
  rcases hr with rfl | hr <;> omega

/-- A block which falls through only to what ends. -/
theorem Guarded.block_low {s : Str} (hshort : ∀ r : Str, r.length < s.length → ∀ t ∈ g.tokens.list, EndsTok g env deps r t) {stack : List Str} (hs : StackOk g stack)
    {parent : Str} {n : Nat} {e : GElement} {c : PContainer} (h : UnfC g stack parent n e c) (hr : ∀ r, e.content = .rule r → RuleWF r)
    (hE : ∀ u ∈ g.tokens.list, (∃ specs, e.content = .token u.name specs) → EndsTok g env deps s u)
    (ch nx : Bool) (st : St) (hst : st.canPrefix = false) : EndsAt (fun n => containerToBlockMatch env n c deps s ch nx) st := by
  refine block_here H.chans H.firsts hst (fun r hrs st hst => H.block_short hshort hs h hr r hrs nx nx st hst) ?_
  intro hsne st1 hf
  refine H.cont_ends hs h hr ?_ nx st1 ?_
  · intro u hu hx r hr
    rcases hr with rfl | hr
    · exact hE u hu hx
    · exact hshort r hr u hu
  · obtain ⟨m, hm⟩ := hf
    cases ch with
    | false => simp at hm; subst hm; exact hst
    | true => exact ((H.keeps (A := fun _ => True) (fun _ _ _ _ => trivial) m).chan c s nx hsne (H.contWithinTrue h) _ _ _ hst hm).1

/-- One element of the class `k`: all that matters is the part which begins with the same class, and nothing touches the entries of the class before it. -/
theorem Guarded.chain {s : Str} {k : Nat} (hshort : ∀ r : Str, r.length < s.length → ∀ t ∈ g.tokens.list, EndsTok g env deps r t)
    (hlow : ∀ t ∈ g.tokens.list, rank t.name < k → EndsTok g env deps s t) (G : St → Prop)
    (hG : ∀ st st', G st → st'.canPrefix = false → (∀ n, rank n = k → st'.recursive n = st.recursive n) → G st')
    {stack : List Str} (hs : StackOk g stack) {t : GToken} (ht : t ∈ g.tokens.list) (hk : rank t.name = k) {e : Element} (hu : Unf g stack t e) {ch : Bool}
    (hstep : ∀ n x c u specs, x.content = .token u specs → rank u = k → UnfC g stack t.name n x c → ∀ st, st.canPrefix = false → G st →
      EndsAt (fun n => containerToBlockMatch env n c deps s ch ch) st)
    (st : St) (hst : st.canPrefix = false) (hg : G st) : EndsAt (fun n => elementToToken env n e deps s ch) st := by
  obtain ⟨hord, hrules⟩ := H.guard.ordinary t ht
  have hnot := unf_notNil hu hord
  refine elem_of_best hnot ?_
  cases hu with
  | @mk _ _ must not h1 h2 h3 h4 h5 =>
  simp only [Element.must]
  have KT := fun n => H.keeps (A := fun _ => True) (fun _ _ _ _ => trivial) n
  have KA := fun n => H.keeps (A := Away g.tokens.list rank k) (away_closed k) n
  obtain ⟨chans, hch, hplain⟩ := H.chans.bounded
  have hawayk : ∀ n, rank n = k → ¬ Away g.tokens.list rank k n := fun n hn ha => ha n .refl hn
  refine bestLoop_follow (f := fun n l => lineToMatches env n l deps s ch) (fun l => mon_line _ _ _ _)
    (fun ls st => st.canPrefix = false ∧ ∃ before gls, t.must = before ++ gls ∧ UnfLines g stack t.name gls ls ∧
      (G st ∨ ∃ l ∈ before, ∃ u, GLine.Has l u ∧ ¬ Away g.tokens.list rank k u)) ?_ must _ _ st ⟨hst, [], t.must, rfl, h3, .inl hg⟩
  clear h3 hst hg st
  rintro l ls st ⟨hst, before, gls, hmust, hls, hg⟩
  cases hls with
  | @cons _ _ gl gls' _ _ h6 h7 h8 =>
  have hglm : gl ∈ t.must := by rw [hmust]; simp
  refine ⟨?_, ?_⟩
  · refine EndsAt.of_succ ?_
    simp only [lineToMatches]
    refine lineLoop_follow (f := fun n c rem ch next => containerToBlockMatch env n c deps rem ch next) (fun c r a b => mon_block _ _ _ _ _)
      (fun is a b rem st => st.canPrefix = false ∧ ∃ pre gis, gl = pre ++ gis ∧ UnfLine g stack t.name (elementsIn gl) gis is ∧
        (rem.length < s.length ∨ (rem = s ∧ (∀ x, .element x ∈ pre → SpecAllows x.times 0) ∧ (.channelSwitch ∉ pre → a = ch ∧ b = ch) ∧
          (G st ∨ (∃ l ∈ before, ∃ u, GLine.Has l u ∧ ¬ Away g.tokens.list rank k u) ∨ ∃ u, GLine.Has pre u ∧ ¬ Away g.tokens.list rank k u)))) ?_ ?_
      l ch ch s [] st ⟨hst, [], gl, rfl, h7, .inr ⟨rfl, by simp, fun _ => ⟨rfl, rfl⟩, hg.imp_right .inl⟩⟩
    · rintro is a b rem st1 ⟨hst1, pre, gis, hgl, hul, hrem⟩
      cases hul with
      | @switch _ _ _ gis' _ hul =>
        refine ⟨hst1, pre ++ [.channelSwitch], gis', by simp [hgl], hul, hrem.imp_right ?_⟩
        rintro ⟨r1, r2, r3, r4⟩
        refine ⟨r1, by simpa using r2, by simp, ?_⟩
        refine r4.imp_right (Or.imp_right ?_)
        rintro ⟨u, ⟨x, hx, hxx⟩, hu⟩
        exact ⟨u, ⟨x, by simp [hx], hxx⟩, hu⟩
    · rintro c is a b rem st1 ⟨hst1, pre, gis, hgl, hul, hrem⟩
      cases hul with
      | @elem _ _ _ x _ gis' _ hc hul =>
      have hxr : ∀ r, x.content = .rule r → RuleWF r := fun r hr => hrules gl hglm x (by simp [hgl]) r hr
      refine ⟨?_, ?_⟩
      · rcases hrem with hrem | ⟨rfl, r2, r3, r4⟩
        · exact H.block_short hshort hs hc hxr rem hrem a b st1 hst1
        · by_cases hin : ∃ u specs, x.content = .token u specs ∧ rank u = k
          · obtain ⟨u, specs, hx, hrk⟩ := hin
            have hleft := H.guard.left t ht before pre x ⟨⟨gis', gls', by rw [hmust, hgl]⟩, r2⟩ u specs hx
            rcases hleft with hlt | ⟨_, hsw, haw⟩
            · omega
            · obtain ⟨rfl, rfl⟩ := r3 hsw
              refine hstep _ x c u specs hx hrk hc st1 hst1 ?_
              rcases r4 with r4 | ⟨l', hl', w, hw, hna⟩ | ⟨w, hw, hna⟩
              · exact r4
              · exact absurd (fun z hz => hk ▸ haw l' (.inr hl') w hw z hz) hna
              · exact absurd (fun z hz => hk ▸ haw pre (.inl rfl) w hw z hz) hna
          · refine H.block_low hshort hs hc hxr ?_ a b st1 hst1
            rintro u hu ⟨specs, hx⟩
            refine hlow u hu ?_
            rcases H.guard.left t ht before pre x ⟨⟨gis', gls', by rw [hmust, hgl]⟩, r2⟩ u.name specs hx with hlt | ⟨heq, _⟩
            · omega
            · exact absurd ⟨u.name, specs, hx, by omega⟩ hin
      · intro n y st2 hrun hyv hyp
        have hk2 := (KT n).block c rem a b (H.contWithinTrue hc) _ _ _ hst1 hrun
        refine ⟨hk2.1, pre ++ [.element x], gis', by simp [hgl], hul, ?_⟩
        have hle := hyp.length_le
        by_cases hd : y.discoveries = []
        · rw [hd]
          simp only [List.length_nil, List.drop_zero]
          refine hrem.imp_right ?_
          rintro ⟨rfl, r2, r3, r4⟩
          refine ⟨rfl, ?_, ?_, ?_⟩
          · intro z hz
            rcases List.mem_append.mp hz with hz | hz
            · exact r2 z hz
            · simp at hz
              subst hz
              obtain ⟨kk, k1, k2⟩ := block_optional (chans := chans) hplain (H.contOk hc hxr) y ((sound env chans hch n).block _ _ _ _ _ _ _ _ hrun) hyv hd
              rw [unfC_times hc] at k1
              cases k1
              exact allows_zero k2
          · intro hsw
            obtain ⟨ha, hb⟩ := r3 (by simpa using hsw)
            rw [ha, hb]
            exact ⟨by cases ch <;> rfl, rfl⟩
          · by_cases haw : ∀ u specs, x.content = .token u specs → Away g.tokens.list rank k u
            · have hk3 := (KA n).block c rem a b (H.contWithin (away_closed k) hc haw) _ _ _ hst1 hrun
              rcases r4 with r4 | r4 | ⟨w, ⟨z, hz, hzz⟩, hna⟩
              · exact .inl (hG _ _ r4 hk3.1 fun n hn => hk3.2 n (hawayk n hn))
              · exact .inr (.inl r4)
              · exact .inr (.inr ⟨w, ⟨z, by simp [hz], hzz⟩, hna⟩)
            · push Not at haw
              obtain ⟨u, specs, hx, hna⟩ := haw
              exact .inr (.inr ⟨u, ⟨x, by simp, specs, hx⟩, hna⟩)
        · left
          have := List.length_pos_iff.mpr hd
          simp only [List.length_drop]
          rcases hrem with hrem | ⟨rfl, _⟩ <;> omega
  · intro n r st1 hrun
    have hw : ∀ c, Instruction.container c ∈ l → WithinC (fun _ => True) c :=
      unfLine_within H.tokens H.closed (Guarded.within (A := fun _ => True) (fun _ _ _ _ => trivial)) (fun t ht => (H.guard.ordinary t ht).1) h7 (fun _ _ _ _ _ => trivial)
    have hk2 := (KT n).line l s ch hw _ _ _ hst hrun
    refine ⟨hk2.1, before ++ [gl], gls', by simp [hmust], h8, ?_⟩
    by_cases haw : ∀ x, .element x ∈ gl → ∀ u specs, x.content = .token u specs → Away g.tokens.list rank k u
    · have hw : ∀ c, Instruction.container c ∈ l → WithinC (Away g.tokens.list rank k) c :=
        unfLine_within H.tokens H.closed (Guarded.within (away_closed k)) (fun t ht => (H.guard.ordinary t ht).1) h7 haw
      have hk3 := (KA n).line l s ch hw _ _ _ hst hrun
      rcases hg with hg | ⟨l', hl', hx⟩
      · exact .inl (hG _ _ hg hk3.1 fun n hn => hk3.2 n (hawayk n hn))
      · exact .inr ⟨l', by simp [hl'], hx⟩
    · push Not at haw
      obtain ⟨x, hx, u, specs, hxu, hna⟩ := haw
      exact .inr ⟨gl, by simp, u, ⟨x, hx, specs, hxu⟩, hna⟩

/-! ## Quiet texts: without channels, or with channels which find nothing or the whole text -/

omit H in
/-- A container falls through with the same map. -/
theorem falls_quiet (hv : ChannelsAnswer env v) {c : PContainer} {s : Str} (hs : s ≠ []) {ch nx : Bool}
    (hq : ch = true → ∀ l, v s = some l → l.discoveries <+: s → s.drop l.discoveries.length = [])
    {st st1 : St} (hst : st.canPrefix = false) (h : Falls env c deps s ch nx st st1) : st1.canPrefix = false ∧ st1.recursive = st.recursive := by
  obtain ⟨n, h⟩ := h
  cases ch with
  | false => simp at h; subst h; exact ⟨hst, rfl⟩
  | true =>
    simp only [if_true] at h
    cases n with
    | zero => simp [findChannelBlockMatch] at h
    | succ n =>
      simp only [findChannelBlockMatch] at h
      rw [M.bind_some_ok (M.get_run _), M.bind_some_ok (M.set_run _ _)] at h
      obtain ⟨o, s1, h1, h⟩ := M.bind_ok.mp h
      obtain ⟨e1, e2⟩ := hv.run _ _ _ _ _ _ hs (by exact hst) h1
      simp at e1
      subst e1
      subst e2
      cases hl : v s with
      | none =>
        rw [hl] at h
        simp at h
        subst h
        exact ⟨hst, rfl⟩
      | some l =>
        rw [hl] at h
        dsimp only at h
        cases hp : l.discoveries.isPrefixOf s with
        | false =>
          rw [hp] at h
          simp at h
          subst h
          exact ⟨hst, rfl⟩
        | true =>
          rw [hp] at h
          simp only [Bool.not_true, Bool.false_eq_true, if_false] at h
          obtain ⟨o, s2, h2, h⟩ := M.bind_ok.mp h
          cases o with
          | some b => simp at h
          | none =>
            simp at h
            subst h
            have hp' := isPrefixOf_iff.mp hp
            rw [replaceFirst_prefix hp', hq rfl l hl hp'] at h2
            rw [block_end h2]
            exact ⟨hst, rfl⟩

omit H in
/-- The tokens of the class which are not remembered at the text. -/
def unguarded (g : PathEnv) (rank : Str → Nat) (k : Nat) (s : Str) (st : St) : Nat :=
  ((g.tokens.list.map GToken.name).filter (fun n => rank n = k ∧ st.recursive n ≠ some s)).length

omit H in
theorem unguarded_same {k : Nat} {s : Str} {st st' : St} (h : ∀ n, rank n = k → st'.recursive n = st.recursive n) :
    unguarded g rank k s st' = unguarded g rank k s st := by
  unfold unguarded
  congr 1
  refine List.filter_congr ?_
  intro n _
  simp only [decide_eq_decide]
  constructor
  · rintro ⟨h1, h2⟩
    exact ⟨h1, by rwa [← h n h1]⟩
  · rintro ⟨h1, h2⟩
    exact ⟨h1, by rwa [h n h1]⟩

omit H in
theorem unguarded_lt {k : Nat} {s : Str} {st : St} {n : Str} (hn : n ∈ g.tokens.list.map GToken.name) (hk : rank n = k) (hr : st.recursive n ≠ some s) :
    unguarded g rank k s { st with recursive := Function.update st.recursive n (some s) } < unguarded g rank k s st := by
  unfold unguarded
  refine filter_lt (a := n) ?_ hn (by simpa using ⟨hk, hr⟩) (by simp)
  intro x hx
  simp only [decide_eq_true_eq] at hx ⊢
  obtain ⟨h1, h2⟩ := hx
  refine ⟨h1, ?_⟩
  by_cases hxn : x = n
  · subst hxn; exact hr
  · rwa [Function.update_of_ne hxn] at h2

theorem Guarded.quiet {s : Str} {k : Nat} (hshort : ∀ r : Str, r.length < s.length → ∀ t ∈ g.tokens.list, EndsTok g env deps r t)
    (hlow : ∀ t ∈ g.tokens.list, rank t.name < k → EndsTok g env deps s t) {ch : Bool}
    (hq : ch = true → ∀ l, v s = some l → l.discoveries <+: s → s.drop l.discoveries.length = []) : ∀ m f, ∀ stack t e, t ∈ g.tokens.list → rank t.name = k →
      StackOk g stack → Unf g stack t e → freeNames g stack ≤ f → ∀ st, st.canPrefix = false → unguarded g rank k s st ≤ m →
      EndsAt (fun n => elementToToken env n e deps s ch) st := by
  intro m
  induction m using Nat.strong_induction_on with
  | _ m ihm =>
  intro f
  induction f using Nat.strong_induction_on with
  | _ f ihf =>
  intro stack t e ht hk hs hu hf st hst hm
  refine H.chain hshort hlow (fun st => unguarded g rank k s st ≤ m) ?_ hs ht hk hu ?_ st hst hm
  · intro st st' h _ hr
    rw [unguarded_same hr]
    exact h
  · intro n x c u specs hx hrk hc st hst hm
    have hxr : ∀ r, x.content = .rule r → RuleWF r := by intro r hr; rw [hx] at hr; cases hr
    refine block_here H.chans H.firsts hst (fun r hrs st hst => H.block_short hshort hs hc hxr r hrs ch ch st hst) ?_
    intro hsne st1 hfall
    obtain ⟨q1, q2⟩ := falls_quiet H.chans hsne hq hst hfall
    have hm1 : unguarded g rank k s st1 ≤ m := by
      rw [unguarded_same (st := st) (fun n _ => by rw [q2])]
      exact hm
    cases hc with
    | @recur _ _ _ _ name _ sp h1 h2 _ _ _ =>
      rw [hx] at h1
      cases h1
      refine recursive_ends ?_
      intro hr e' he
      obtain ⟨u', hu', hn', hxx⟩ := H.fetched he
      have hnil : StackOk g [] := by simp [StackOk]
      have hlt := unguarded_lt (g := g) (rank := rank) (s := s) (st := st1) (n := u) (List.mem_map.mpr ⟨u', hu', hn'⟩) hrk hr
      have hst' : ({ st1 with recursive := Function.update st1.recursive u (some s) } : St).canPrefix = false := q1
      exact H.tok_ends hu' hxx hst' (ihm _ (lt_of_lt_of_le hlt hm1) _ _ _ _ hu' (by rw [hn', hrk]) hnil hxx le_rfl _ hst' le_rfl) hnil (fun r hr => hshort r hr _ hu') _ _
    | replaced _ _ _ h4 => rw [H.closed.1] at h4; cases h4
    | missing _ _ _ _ _ h6 => rw [H.closed.2] at h6; cases h6
    | @declared _ _ _ _ name _ sp el w h1 h2 _ _ h5 h6 =>
      rw [hx] at h1
      cases h1
      obtain ⟨k1, k2⟩ := (H.tokens.find _ _).mp h5
      have hs' : StackOk g (w.name :: stack) := by
        intro x hx
        rcases List.mem_cons.mp hx with rfl | hx
        · exact ⟨w, k1, rfl⟩
        · exact hs x hx
      have hlt := freeNames_lt (g := g) (n := w.name) (List.mem_map.mpr ⟨w, k1, rfl⟩) (by rw [k2]; exact h2)
      refine EndsAt.of_succ ?_
      simp only [containerToMatch]
      refine EndsAt.bind (F := fun n => tokenToTokenMatch env n el sp _ deps s ch)
        (fun n m hnm => (mono env n m hnm).tok _ _ _ _ _ _) (fun _ => Mon.const _) ?_ (fun _ _ _ _ => .pure)
      exact H.tok_ends k1 h6 q1 (ihf _ (lt_of_lt_of_le hlt hf) _ _ _ k1 (by rw [k2, hrk]) hs' h6 le_rfl _ q1 hm1) hs' (fun r hr => hshort r hr _ k1) _ _
    | rule h1 => rw [hx] at h1; cases h1

/-! ## Texts at which the channels find a proper beginning -/

theorem Guarded.gap_root {s : Str} {k : Nat} (hshort : ∀ r : Str, r.length < s.length → ∀ t ∈ g.tokens.list, EndsTok g env deps r t)
    (hlow : ∀ t ∈ g.tokens.list, rank t.name < k → EndsTok g env deps s t)
    (hq : ∃ l, v s = some l ∧ l.discoveries <+: s ∧ s.drop l.discoveries.length ≠ []) {t : GToken} {e : Element} (ht : t ∈ g.tokens.list) (hk : rank t.name = k)
    (hu : Unf g [] t e) (st : St) (hst : st.canPrefix = false) : EndsAt (fun n => elementToToken env n e deps s true) st := by
  have hnil : StackOk g [] := by simp [StackOk]
  refine H.chain hshort hlow (fun _ => True) (fun _ _ _ _ _ => trivial) hnil ht hk hu ?_ st hst trivial
  intro n x c u specs hx hrk hc st hst _
  have hxr : ∀ r, x.content = .rule r → RuleWF r := by intro r hr; rw [hx] at hr; cases hr
  refine block_here H.chans H.firsts hst (fun r hrs st hst => H.block_short hshort hnil hc hxr r hrs true true st hst) ?_
  intro hsne st1 hfall
  obtain ⟨l, h1, h2, h3⟩ := hq
  cases hc with
  | recur _ h2 _ _ _ => simp at h2
  | replaced _ _ _ h4 => rw [H.closed.1] at h4; cases h4
  | missing _ _ _ _ _ h6 => rw [H.closed.2] at h6; cases h6
  | declared _ _ _ _ _ _ => exact absurd ((falls_plain H.chans (.inl ⟨_, _, _, rfl⟩) hsne hst hfall).2.2 rfl l h1 h2) h3
  | rule h1 => rw [hx] at h1; cases h1

theorem Guarded.gap {s : Str} {k : Nat} (hshort : ∀ r : Str, r.length < s.length → ∀ t ∈ g.tokens.list, EndsTok g env deps r t)
    (hlow : ∀ t ∈ g.tokens.list, rank t.name < k → EndsTok g env deps s t)
    (hq : ∃ l, v s = some l ∧ l.discoveries <+: s ∧ s.drop l.discoveries.length ≠ []) {stack : List Str} (hs : StackOk g stack) {t : GToken} {e : Element}
    (ht : t ∈ g.tokens.list) (hk : rank t.name = k) (hu : Unf g stack t e) (st : St) (hst : st.canPrefix = false) :
    EndsAt (fun n => elementToToken env n e deps s true) st := by
  refine H.chain hshort hlow (fun _ => True) (fun _ _ _ _ _ => trivial) hs ht hk hu ?_ st hst trivial
  intro n x c u specs hx hrk hc st hst _
  have hxr : ∀ r, x.content = .rule r → RuleWF r := by intro r hr; rw [hx] at hr; cases hr
  refine block_here H.chans H.firsts hst (fun r hrs st hst => H.block_short hshort hs hc hxr r hrs true true st hst) ?_
  intro hsne st1 hfall
  have hw := H.contWithinTrue hc
  cases hc with
  | @recur _ _ _ _ name _ sp h1 h2 _ _ _ =>
    rw [hx] at h1
    cases h1
    have hst1 : st1.canPrefix = false := by
      obtain ⟨m, hm⟩ := hfall
      simp only [if_true] at hm
      exact ((H.keeps (A := fun _ => True) (fun _ _ _ _ => trivial) m).chan _ s true hsne hw _ _ _ hst hm).1
    refine recursive_ends ?_
    intro hr e' he
    obtain ⟨u', hu', hn', hxx⟩ := H.fetched he
    have hnil : StackOk g [] := by simp [StackOk]
    have hst' : ({ st1 with recursive := Function.update st1.recursive u (some s) } : St).canPrefix = false := hst1
    exact H.tok_ends hu' hxx hst' (H.gap_root hshort hlow hq hu' (by rw [hn', hrk]) hxx _ hst') hnil (fun r hr => hshort r hr _ hu') _ _
  | replaced _ _ _ h4 => rw [H.closed.1] at h4; cases h4
  | missing _ _ _ _ _ h6 => rw [H.closed.2] at h6; cases h6
  | declared _ _ _ _ _ _ =>
    obtain ⟨l, h1, h2, h3⟩ := hq
    exact absurd ((falls_plain H.chans (.inl ⟨_, _, _, rfl⟩) hsne hst hfall).2.2 rfl l h1 h2) h3
  | rule h1 => rw [hx] at h1; cases h1

/-- Every token of a guarded grammar ends at every text. -/
theorem Guarded.ends (s : Str) : ∀ t ∈ g.tokens.list, EndsTok g env deps s t := by
  induction hN : s.length using Nat.strong_induction_on generalizing s with
  | _ N ihN =>
  subst hN
  have hshort : ∀ r : Str, r.length < s.length → ∀ t ∈ g.tokens.list, EndsTok g env deps r t := fun r hr => ihN r.length hr r rfl
  have hrank : ∀ k, ∀ t ∈ g.tokens.list, rank t.name = k → EndsTok g env deps s t := by
    intro k
    induction k using Nat.strong_induction_on with
    | _ k ihk =>
    intro t ht hk stack e hs hu ch st hst
    have hlow : ∀ t ∈ g.tokens.list, rank t.name < k → EndsTok g env deps s t := fun t ht h => ihk _ h t ht rfl
    by_cases hq : ch = true → ∀ l, v s = some l → l.discoveries <+: s → s.drop l.discoveries.length = []
    · exact H.quiet hshort hlow hq _ _ stack t e ht hk hs hu le_rfl st hst le_rfl
    · push Not at hq
      obtain ⟨rfl, l, h1, h2, h3⟩ := hq
      exact H.gap hshort hlow ⟨l, h1, h2, h3⟩ hs ht hk hu st hst
  exact fun t ht => hrank _ t ht rfl

/-- The lexer ends. -/
theorem Guarded.toToken_ends {t : GToken} (ht : t ∈ g.tokens.list) (hroot : Unf g [] t env.root.element) (hdeps : env.root.deps = deps) (s : Str) (st : St)
    (hst : st.canPrefix = false) : EndsAt (fun n => toToken env n s) st := by
  unfold toToken
  refine EndsAt.bind (F := fun _ => M.get) (Mon.const _) (fun _ => Mon.bind (Mon.const _) fun _ => mon_elem _ _ _ _) (.const rfl) ?_
  intro n s0 s1 h
  simp at h
  obtain ⟨rfl, rfl⟩ := h
  refine EndsAt.bind (F := fun _ => M.set { st with recursive := fun _ => none }) (Mon.const _) (fun _ => mon_elem _ _ _ _) (.const rfl) ?_
  intro n _ s2 h2
  simp at h2
  subst h2
  rw [hdeps]
  exact H.ends s t ht [] _ (by simp [StackOk]) hroot true _ hst

end

end Verif.Lexer
