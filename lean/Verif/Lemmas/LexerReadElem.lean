import Verif.Lemmas.LexerReadMatch

/-! What the matcher reads. -/

namespace Verif.Lexer
open Verif.Patterns Verif.Cardinality

/-- What a token reads. -/
def tokenOut (t : Token) : Option Str := if t.isValid = true then some t.discoveries else none

/-- What the best line reads. -/
def lineOut : Option LineMatch → Option Str
  | none => none
  | some l => if l.isValid = true then some l.discoveries else none

open Classical in
/-- What a block reads. -/
noncomputable def blockOut (s : Str) : Option BlockMatch → Outcome
  | none => .stop
  | some b => .read (if b.isValid = true ∧ b.discoveries <+: s then some b.discoveries else none)

/-- The channels are the ones of the matcher, or there are none. -/
def Mode (env : Env) (gap : Reader) (sw ch : Bool) : Prop := (∀ k s o, GapReads (env.channels k) s o → gap s o) ∨ (sw = false ∧ ch = false)

structure ReadSound (env : Env) (n : Nat) : Prop where
  elem : ∀ e deps s ch st t st' gap sw, elementToToken env n e deps s ch st = some (.ok t, st') → Readable sw e → s.length < 2 ^ 63 → Mode env gap sw ch →
    e.Reads gap ch s (tokenOut t)
  content : ∀ e deps s ch st t st' gap sw, elementToTokenContent env n e deps s ch st = some (.ok t, st') → Readable sw e → s.length < 2 ^ 63 →
    Mode env gap sw ch → e.Reads gap ch s (tokenOut (.mk e.name t))
  best : ∀ ls deps s ch st r st' gap sw, bestLineToMatches env n ls deps s ch st = some (.ok r, st') → (∀ l ∈ ls, sw = false → Instruction.channelSwitch ∉ l) →
    (∀ l ∈ ls, ∀ c, Instruction.container c ∈ l → ReadableC sw c) → s.length < 2 ^ 63 → Mode env gap sw ch →
    ∃ os, LinesRead gap ls ch s os ∧ BestRead os (lineOut r)
  tok : ∀ e card deps s ch st t st' gap sw, tokenToTokenMatch env n e [] card deps s ch st = some (.ok t, st') → Readable sw e → s.length < 2 ^ 63 →
    Mode env gap sw ch → ∃ ws, Repeats (e.Reads gap ch) (tries card) s ws ∧ Judged card ws (matchOut (wrapToken t) s)
  line : ∀ l deps s ch st t st' gap sw, lineToMatches env n l deps s ch st = some (.ok t, st') → (sw = false → Instruction.channelSwitch ∉ l) →
    (∀ c, Instruction.container c ∈ l → ReadableC sw c) → s.length < 2 ^ 63 → Mode env gap sw ch →
    ∃ o, LineReads gap l ch ch s o ∧ ∀ u, u ≠ [] → (o = some u ↔ ∃ bs, t = some bs ∧ blocksValid bs = true ∧ blocksDiscoveries bs = u)
  block : ∀ p deps s ch x st t st' gap sw, containerToBlockMatch env n p deps s ch x st = some (.ok t, st') → ReadableC sw p → s.length < 2 ^ 63 →
    Mode env gap sw ch → Mode env gap sw x → BlockReads gap (p.Reads gap) p.Optional x ch s (blockOut s t)
  chan : ∀ p deps s x st t st' gap sw, findChannelBlockMatch env n p deps s x st = some (.ok t, st') → ReadableC sw p → s.length < 2 ^ 63 →
    (∀ k s o, GapReads (env.channels k) s o → gap s o) → Mode env gap sw x →
    (t = none ∧ gap s none) ∨ (t = none ∧ ∃ g, gap s (some g) ∧ BlockReads gap (p.Reads gap) p.Optional x x (s.drop g.length) .stop) ∨
      ∃ b g o, t = some b ∧ gap s (some g) ∧ BlockReads gap (p.Reads gap) p.Optional x x (s.drop g.length) (.read o) ∧ blockOut s t = .read (o.map (g ++ ·))
  mtch : ∀ p deps s x st t st' gap sw, containerToMatch env n p deps s x st = some (.ok t, st') → ReadableC sw p → s.length < 2 ^ 63 → Mode env gap sw x →
    ∃ m, t = some m ∧ p.Reads gap x s (matchOut m s)

theorem tokenLoop_reads {env : Env} {R : Reader} {f : Str → M Token} (card : Card) (len : Nat) (hlen : len < 2 ^ 63)
    (hR : ∀ s w, R s (some w) → w ≠ []) (hf : ∀ rem s t s', f rem s = some (.ok t, s') → rem.length ≤ len → R rem (tokenOut t) ∧ t.discoveries <+: rem) (n : Nat) :
    ∀ rem acc s l s', tokenLoop f card n rem acc s = some (.ok l, s') → acc.length + rem.length ≤ len → (tries card).map (· - acc.length) ≠ some 0 →
      ∃ new, l = acc ++ new ∧ tokensValid new = true ∧ tokensDiscoveries new = (new.map Token.discoveries).flatten ∧ tokensDiscoveries new <+: rem ∧
        Repeats R ((tries card).map (· - acc.length)) rem (new.map Token.discoveries) := by
  induction n with
  | zero => intro rem acc s l s' h; simp [tokenLoop] at h
  | succ n ih =>
    intro rem acc s l s' h hal hnz
    obtain ⟨t, s1, ht, h⟩ := M.bind_ok.mp h
    obtain ⟨hc, hpre⟩ := hf _ _ _ _ ht (by omega)
    split at h
    · rename_i hv
      simp at h; obtain ⟨rfl, _⟩ := h
      refine ⟨[], by simp, by simp [tokensValid], by simp [tokensDiscoveries], by simp [tokensDiscoveries], .stop ?_⟩
      have : t.isValid = false := by simpa using hv
      simpa [tokenOut, this] using hc
    · rename_i hv
      have hv : t.isValid = true := by simpa using hv
      simp only [tokenOut, hv, if_true] at hc
      have hne := hR _ _ hc
      have hpos : 0 < t.discoveries.length := List.length_pos_iff.mpr hne
      obtain ⟨c, hc1, hc2⟩ := valid_discoveries hv
      rw [hc1] at h
      dsimp only at h
      rw [← hc2] at h
      rw [if_neg (by simpa [isPrefixOf_iff] using hpre)] at h
      have hrl := hpre.length_le
      have hn : acc.length + 1 < 2 ^ 64 := by omega
      split at h
      · rename_i hr
        simp at h; obtain ⟨rfl, _⟩ := h
        refine ⟨[t], rfl, by simp [tokensValid, hv], by simp [tokensDiscoveries], by simpa [tokensDiscoveries] using hpre, repeats_tail hnz hc ?_⟩
        rw [tries_full hn hr (by omega)]
        exact .full
      · rename_i hr
        rw [replaceFirst_prefix hpre] at h
        obtain ⟨new, rfl, h1, h2, hp2, h3⟩ := ih _ _ _ _ _ h (by simp; omega) (by simpa using tries_more hn hr)
        refine ⟨t :: new, by simp, by simp [tokensValid, hv, h1], by simp [tokensDiscoveries, h2], ?_, repeats_tail hnz hc ?_⟩
        · obtain ⟨z, hz⟩ := hpre
          rw [← hz, List.drop_left] at hp2
          rw [← hz]
          simpa [tokensDiscoveries] using hp2
        simpa using h3

theorem channelLoop_reads {f : Path → M Token} {s : Str} (ps : List Path)
    (hf : ∀ p ∈ ps, ∀ st t st', f p st = some (.ok t, st') → p.element.Reads noGap false s (tokenOut t) ∧ t.discoveries <+: s) : ∀ st l st',
    channelLoop f ps st = some (.ok l, st') → (∀ x, l = some x → x.discoveries <+: s) ∧ GapReads ps s (l.map LineMatch.discoveries) := by
  induction ps with
  | nil => intro st l st' h; simp [channelLoop] at h; obtain ⟨rfl, _⟩ := h; simp [GapReads]
  | cons p ps ih =>
    intro st l st' h
    obtain ⟨t, s1, ht, h⟩ := M.bind_ok.mp h
    obtain ⟨h1, h2⟩ := hf p (by simp) _ _ _ ht
    split at h
    · rename_i hv
      have hv : t.isValid = false := by simpa using hv
      obtain ⟨h3, h4⟩ := ih (fun q hq => hf q (by simp [hq])) _ _ _ h
      exact ⟨h3, none, by simpa [tokenOut, hv] using h1, h4⟩
    · rename_i hv
      have hv : t.isValid = true := by simpa using hv
      obtain ⟨c, hc1, hc2⟩ := valid_discoveries hv
      rw [hc1] at h
      simp at h; obtain ⟨rfl, _⟩ := h
      rw [hc2] at h2
      refine ⟨by simpa using h2, some t.discoveries, by simpa [tokenOut, hv] using h1, by simp [hc2]⟩

theorem lineLoop_reads {env : Env} {gap : Reader} {sw : Bool} {f : PContainer → Str → Bool → Bool → M (Option BlockMatch)} (len : Nat) (is : List Instruction)
    (hsw : sw = false → Instruction.channelSwitch ∉ is)
    (hf : ∀ c, Instruction.container c ∈ is → ∀ r a b st t st', f c r a b st = some (.ok t, st') → r.length ≤ len → Mode env gap sw a → Mode env gap sw b →
      BlockReads gap (c.Reads gap) c.Optional b a r (blockOut r t)) :
    ∀ a b rem acc st r st', lineLoop f is a b rem acc st = some (.ok r, st') → rem.length ≤ len → Mode env gap sw a → Mode env gap sw b →
      ∃ o, LineReads gap is a b rem o ∧ match o with
        | none => r = none ∨ ∃ x, r = some [x] ∧ x.isValid = false
        | some u => ∃ new, blocksValid new = true ∧ blocksDiscoveries new = u ∧ r = if (acc ++ new).isEmpty then none else some (acc ++ new) := by
  induction is with
  | nil =>
    intro a b rem acc st r st' h _ _ _
    simp only [lineLoop, M.pure_run, Option.some.injEq, Prod.mk.injEq, Out.ok.injEq] at h
    obtain ⟨h, _⟩ := h
    exact ⟨some [], by simp [LineReads], [], by simp [blocksValid], by simp [blocksDiscoveries], by simp [← h]⟩
  | cons i is ih =>
    have ih := ih (fun h h' => hsw h (by simp [h'])) (fun c hc => hf c (by simp [hc]))
    intro a b rem acc st r st' h hl ha hb
    cases i with
    | channelSwitch =>
      have hb' : Mode env gap sw (!b) := by
        rcases hb with hb | ⟨h1, _⟩
        · exact .inl hb
        · exact absurd (by simp) (hsw h1)
      obtain ⟨o, h1, h2⟩ := ih _ _ _ _ _ _ _ h hl ha hb'
      exact ⟨o, by simpa [LineReads] using h1, h2⟩
    | container c =>
      obtain ⟨m, s1, hm, h⟩ := M.bind_ok.mp h
      have hB := hf c (by simp) _ _ _ _ _ _ hm hl ha hb
      cases m with
      | none =>
        simp only [M.pure_run, Option.some.injEq, Prod.mk.injEq, Out.ok.injEq] at h
        obtain ⟨h, _⟩ := h
        refine ⟨some [], ?_, [], by simp [blocksValid], by simp [blocksDiscoveries], by simp [← h]⟩
        simp only [LineReads]
        exact ⟨.stop, hB, trivial⟩
      | some x =>
        dsimp only at h
        simp only [blockOut] at hB
        split at h
        · rename_i hv
          have hv : x.isValid = false := by simpa using hv
          simp at h; obtain ⟨rfl, _⟩ := h
          refine ⟨none, ?_, .inr ⟨x, rfl, hv⟩⟩
          simp only [LineReads]
          refine ⟨_, hB, ?_⟩
          simp [hv]
        · rename_i hv
          have hv : x.isValid = true := by simpa using hv
          split at h
          · rename_i hp
            have hp : ¬ x.discoveries <+: rem := by
              intro hp'
              simp [isPrefixOf_iff.mpr hp'] at hp
            simp at h; obtain ⟨rfl, _⟩ := h
            refine ⟨none, ?_, .inl rfl⟩
            simp only [LineReads]
            refine ⟨_, hB, ?_⟩
            simp [hp]
          · rename_i hp
            have hp : x.discoveries <+: rem := by simpa [isPrefixOf_iff] using hp
            rw [replaceFirst_prefix hp] at h
            have ha' : Mode env gap sw (if b then a else false) := by
              cases b
              · rcases ha with ha | ⟨h1, _⟩
                · exact .inl ha
                · exact .inr ⟨h1, rfl⟩
              · exact ha
            obtain ⟨o, h1, h2⟩ := ih _ _ _ _ _ _ _ h (by simp; omega) ha' hb
            refine ⟨o.map (x.discoveries ++ ·), ?_, ?_⟩
            · simp only [LineReads]
              refine ⟨_, hB, ?_⟩
              rw [if_pos ⟨hv, hp⟩]
              exact ⟨o, h1, rfl⟩
            · cases o with
              | none => exact h2
              | some u =>
                obtain ⟨new, h3, h4, h5⟩ := h2
                refine ⟨x :: new, by simp [blocksValid, hv, h3], by simp [blocksDiscoveries, h4], ?_⟩
                simp only [h5, List.append_assoc, List.singleton_append]

/-- The lines of an element. -/
theorem linesRead_runs {env : Env} {n : Nat} {deps : List Element} {s : Str} {ch sw : Bool} {gap : Reader} (ih : ReadSound env n) (hl : s.length < 2 ^ 63)
    (hm : Mode env gap sw ch) {ls : List Line} {st st' : St} {ms : List (Option (List BlockMatch))} (h : LineRuns env n deps s ch ls st ms st') :
    (∀ l ∈ ls, sw = false → Instruction.channelSwitch ∉ l) → (∀ l ∈ ls, ∀ c, Instruction.container c ∈ l → ReadableC sw c) →
    ∃ os, LinesRead gap ls ch s os ∧ ∀ u, u ≠ [] → (some u ∈ os ↔ ∃ j l, GoodLine ms j l ∧ blocksDiscoveries l = u) := by
  induction h with
  | nil st => intro _ _; exact ⟨[], by simp [LinesRead], by simp [GoodLine]⟩
  | @cons l ls s0 s1 s2 m ms h1 h2 ihr =>
    intro hsw hc
    obtain ⟨o, a1, a2⟩ := ih.line _ _ _ _ _ _ _ gap sw h1 (hsw l (by simp)) (hc l (by simp)) hl hm
    obtain ⟨os, b1, b2⟩ := ihr (fun l hl => hsw l (by simp [hl])) (fun l hl => hc l (by simp [hl]))
    refine ⟨o :: os, ?_, ?_⟩
    · simp only [LinesRead]
      exact ⟨o, os, rfl, a1, b1⟩
    · intro u hu
      simp only [List.mem_cons]
      rw [b2 u hu, eq_comm, a2 u hu]
      constructor
      · rintro (⟨bs, rfl, c1, c2⟩ | ⟨j, l, c1, c2⟩)
        · exact ⟨0, bs, ⟨by simp, c1, by rw [c2]; exact hu⟩, c2⟩
        · exact ⟨j + 1, l, ⟨by simpa using c1.1, c1.2⟩, c2⟩
      · rintro ⟨j, l, c1, c2⟩
        cases j with
        | zero => exact .inl ⟨l, by simpa using c1.1, c1.2.1, c2⟩
        | succ j => exact .inr ⟨j, l, ⟨by simpa using c1.1, c1.2⟩, c2⟩

theorem bestRead_spec {ms : List (Option (List BlockMatch))} {r : Option LineMatch} {os : List (Option Str)} (h : BestSpec ms r)
    (ho : ∀ u, u ≠ [] → (some u ∈ os ↔ ∃ j l, GoodLine ms j l ∧ blocksDiscoveries l = u)) :
    BestRead os (lineOut r) := by
  have bad : (∀ j l', ¬ GoodLine ms j l') → BestRead os none := by
    intro hn v hv
    by_contra hne
    obtain ⟨j, l, h1, _⟩ := (ho v hne).mp hv
    exact hn j l h1
  cases h with
  | @good i l h1 h2 h3 =>
    have hd : (LineMatch.mk i l).discoveries = blocksDiscoveries l := by simp [LineMatch.discoveries, h1.2.1]
    simp only [lineOut, LineMatch.isValid, h1.2.1, if_true, hd]
    refine ⟨(ho _ h1.2.2).mpr ⟨i, l, h1, rfl⟩, h1.2.2, ?_⟩
    intro v hv
    by_cases hne : v = []
    · simp [hne]
    · obtain ⟨j, l', h4, rfl⟩ := (ho v hne).mp hv
      exact h2 j l' h4
  | @bad i l h1 h2 _ =>
    simp only [lineOut, LineMatch.isValid, h2.2]
    exact bad h1
  | nothing h1 _ => exact bad h1

theorem reads_ne {gap : Reader} {e : Element} {ch : Bool} {s w : Str} (h : e.Reads gap ch s (some w)) : w ≠ [] := by
  cases e with
  | mk nm must nt =>
    simp only [Element.Reads] at h
    obtain ⟨os, _, h⟩ := h
    exact h.2.1

theorem containerToBlock_optional {p : PContainer} {sw : Bool} (hp : ReadableC sw p) {card : Card} (h : p.cardinality = .ok card) :
    card.isValid 0 = true ↔ p.Optional := by
  cases hp <;> simp [PContainer.cardinality] at h <;> subst h <;> simp [PContainer.Optional, isValid_zero]

theorem readSound (env : Env) (chans : List Path) (hsub : ∀ k, ∀ p ∈ env.channels k, p ∈ chans) (hch : ∀ p ∈ chans, Readable false p.element) (n : Nat) :
    ReadSound env n := by
  induction n with
  | zero =>
    constructor
    · intro e deps s ch st t st' gap sw h; simp [elementToToken] at h
    · intro e deps s ch st t st' gap sw h; simp [elementToTokenContent] at h
    · intro e deps s ch st t st' gap sw h; simp [bestLineToMatches] at h
    · intro e k deps s ch st t st' gap sw h; simp [tokenToTokenMatch] at h
    · intro e deps s ch st t st' gap sw h; simp [lineToMatches] at h
    · intro e deps s ch x st t st' gap sw h; simp [containerToBlockMatch] at h
    · intro e deps s ch st t st' gap sw h; simp [findChannelBlockMatch] at h
    · intro e deps s ch st t st' gap sw h; simp [containerToMatch] at h
  | succ n ih =>
    have hsound := sound env chans hsub n
    constructor
    · intro e deps s ch st t st' gap sw h hr hl hm
      simp only [elementToToken] at h
      obtain ⟨x, s1, hx, h⟩ := M.bind_ok.mp h
      split at h
      · simp at h
      · simp at h; obtain ⟨rfl, _⟩ := h
        exact ih.content _ _ _ _ _ _ _ gap sw hx hr hl hm
    · intro e deps s ch st t st' gap sw h hr hl hm
      cases hr with
      | @mk nm must h1 h2 =>
        simp only [elementToTokenContent, Element.must, Element.not] at h
        obtain ⟨r, s1, hx, h⟩ := M.bind_ok.mp h
        obtain ⟨os, ho1, ho2⟩ := ih.best _ _ _ _ _ _ _ gap sw hx h1 h2 hl hm
        simp only [Element.Reads]
        refine ⟨os, ho1, ?_⟩
        cases r with
        | none =>
          simp at h; obtain ⟨rfl, _⟩ := h
          simpa [lineOut, tokenOut, Token.isValid] using ho2
        | some m =>
          simp at h; obtain ⟨rfl, _⟩ := h
          have : tokenOut (.mk nm (some (.mk m none))) = lineOut (some m) := by
            simp only [lineOut, tokenOut, Token.isValid, TokenContent.isValid, Token.discoveries, TokenContent.discoveries]
            congr
          rw [← this] at ho2
          exact ho2
    · intro ls deps s ch st r st' gap sw h h1 h2 hl hm
      simp only [bestLineToMatches] at h
      obtain ⟨b, s2, hb, h⟩ := M.bind_ok.mp h
      simp at h; obtain ⟨rfl, _⟩ := h
      obtain ⟨ms, hr, hinv⟩ := bestLoop_inv ls [] ⟨0, none, none⟩ _ _ _ ⟨by simp [GoodLine], by simp, by simp, by simp, by simp [BadLine]⟩ hb
      obtain ⟨os, h3, h4⟩ := linesRead_runs ih hl hm hr h1 h2
      exact ⟨os, h3, bestRead_spec (by simpa using hinv.result) h4⟩
    · intro e card deps s ch st t st' gap sw h he hl hm
      simp only [tokenToTokenMatch] at h
      obtain ⟨list, s2, hl2, h⟩ := M.bind_ok.mp h
      simp only [M.lift_run, tokenMatchNow, List.any_nil, Bool.false_eq_true, if_false] at h
      split at h
      · simp at h
      simp at h; obtain ⟨rfl, _⟩ := h
      obtain ⟨new, h1, h2, h3, hpre, h4⟩ := tokenLoop_reads (env := env) (R := e.Reads gap ch) card s.length hl (fun _ _ => reads_ne) (by
        intro rem st t st' h hr
        exact ⟨ih.elem _ _ _ _ _ _ _ gap sw h he (by omega) hm, token_prefix (hsound.elem _ _ _ _ _ _ _ h)⟩) _ _ _ _ _ _ hl2 (by simp)
        (by simpa using tries_zero card)
      simp only [List.nil_append] at h1
      subst h1
      rw [List.length_nil, tries_sub_zero] at h4
      refine ⟨_, h4, ?_⟩
      have hcnt : list.length < 2 ^ 64 := by
        have h5 := flatten_length_ge (repeats_ne (fun _ _ => reads_ne) h4)
        rw [← h3] at h5
        have h6 := hpre.length_le
        simp at h5
        omega
      have hv : TokenMatch.isValid (.mk e.name (.mk s card list) []) = true ↔ SpecAllows card list.length := by
        simp only [TokenMatch.isValid, specsValid, List.all_nil, Bool.true_and, TokenResult.isValid, h2, Bool.and_true]
        exact isValid_nat hcnt
      have hd : TokenMatch.discoveries (.mk e.name (.mk s card list) []) = (list.map Token.discoveries).flatten := by
        simp [TokenMatch.discoveries, TokenResult.discoveries, h3]
      unfold Judged
      rw [List.length_map]
      by_cases hA : SpecAllows card list.length
      · left
        refine ⟨hA, ?_⟩
        have := hv.mpr hA
        unfold matchOut
        simp only [wrapToken, this, Bool.not_true, Bool.and_false, Bool.false_eq_true, if_false, Match.isValid, Match.discoveries, hd, true_and]
        rw [if_pos (by rw [← h3]; exact hpre)]
      · have hnv : TokenMatch.isValid (.mk e.name (.mk s card list) []) = false := by
          rw [← Bool.not_eq_true, hv]; exact hA
        right
        by_cases h0 : SpecAllows card 0
        · left
          refine ⟨hA, h0, ?_⟩
          have : card.isValid 0 = true := isValid_zero.mpr h0
          simp [wrapToken, hnv, this, matchOut, Match.isValid, Match.discoveries, TokenMatch.result, TokenResult.card]
        · right
          refine ⟨hA, h0, ?_⟩
          have : ¬ card.isValid 0 = true := fun h => h0 (isValid_zero.mp h)
          simp [wrapToken, this, matchOut, Match.isValid, hnv, TokenMatch.result, TokenResult.card]
    · intro l deps s ch st t st' gap sw h h1 h2 hl hm
      simp only [lineToMatches] at h
      obtain ⟨o, h3, h4⟩ := lineLoop_reads (env := env) (gap := gap) (sw := sw) s.length l h1 (by
        intro c hc r a b st t st' h hr ha hb
        exact ih.block _ _ _ _ _ _ _ _ gap sw h (h2 c hc) (by omega) ha hb) _ _ _ _ _ _ _ h le_rfl hm hm
      refine ⟨o, h3, ?_⟩
      intro u hu
      cases o with
      | none =>
        simp only [reduceCtorEq, false_iff]
        rintro ⟨bs, rfl, a1, a2⟩
        rcases h4 with h4 | ⟨x, h4, h5⟩
        · simp at h4
        · simp at h4; subst h4
          simp [blocksValid, h5] at a1
      | some v =>
        obtain ⟨new, a1, a2, a3⟩ := h4
        simp only [List.nil_append] at a3
        constructor
        · intro e
          simp at e; subst e
          refine ⟨new, ?_, a1, a2⟩
          cases new with
          | nil => exact absurd (by simpa [blocksDiscoveries] using a2.symm) hu
          | cons b bs => simpa using a3
        · rintro ⟨bs, e, b1, b2⟩
          rw [e] at a3
          cases new with
          | nil => simp at a3
          | cons b bs' =>
            simp at a3
            subst a3
            rw [← a2, b2]
    · intro p deps s ch x st t st' gap sw h hp hl hm hmx
      simp only [containerToBlockMatch] at h
      split at h
      · rename_i hs
        subst hs
        obtain ⟨card, s1, hc, h⟩ := M.bind_ok.mp h
        simp at hc
        have hopt := containerToBlock_optional hp hc.1
        split at h
        · rename_i hv
          simp at h; obtain ⟨rfl, _⟩ := h
          exact .endOptional (hopt.mp hv)
        · rename_i hv
          obtain ⟨y, s2, hy, h⟩ := M.bind_ok.mp h
          simp at h; obtain ⟨rfl, _⟩ := h
          simp only [blockOut, BlockMatch.isValid, BlockContent.isValid]
          simp only [Bool.false_eq_true, false_and, if_false]
          exact .endMissing (fun h => hv (hopt.mpr h))
      · rename_i hs
        obtain ⟨b, s1, hb, h⟩ := M.bind_ok.mp h
        have direct : b = none → ∃ o, p.Reads gap x s o ∧ blockOut s t = .read o := by
          rintro rfl
          obtain ⟨m, s2, hm', h⟩ := M.bind_ok.mp h
          obtain ⟨y, rfl, hy⟩ := ih.mtch _ _ _ _ _ _ _ gap sw hm' hp hl hmx
          simp at h; obtain ⟨rfl, _⟩ := h
          refine ⟨_, hy, ?_⟩
          simp only [blockOut, BlockMatch.isValid, BlockContent.isValid, BlockMatch.discoveries, BlockContent.discoveries, matchOut]
          congr
        cases ch with
        | false =>
          simp at hb
          obtain ⟨o, h1, h2⟩ := direct hb.1.symm
          rw [h2]
          exact .off hs h1
        | true =>
          simp only [if_true] at hb
          have hg : ∀ k s o, GapReads (env.channels k) s o → gap s o := by
            rcases hm with hm | ⟨_, hm⟩
            · exact hm
            · simp at hm
          rcases ih.chan _ _ _ _ _ _ _ gap sw hb hp hl hg hmx with ⟨h1, h2⟩ | ⟨h1, g, h2, h3⟩ | ⟨b', g, o, rfl, h2, h3, h4⟩
          · obtain ⟨o, h3, h4⟩ := direct h1
            rw [h4]
            exact .noGap hs h2 h3
          · obtain ⟨o, h5, h6⟩ := direct h1
            rw [h6]
            exact .gapEnd hs h2 h3 h5
          · simp at h; obtain ⟨rfl, _⟩ := h
            rw [h4]
            exact .gap hs h2 h3
    · intro p deps s x st t st' gap sw h hp hl hg hmx
      simp only [findChannelBlockMatch] at h
      obtain ⟨s0, s1, h0, h⟩ := M.bind_ok.mp h
      simp at h0; obtain ⟨rfl, rfl⟩ := h0
      obtain ⟨_, s2, _, h⟩ := M.bind_ok.mp h
      obtain ⟨l, s3, hl', h⟩ := M.bind_ok.mp h
      obtain ⟨hpre, hgap⟩ := channelLoop_reads (s := s) _ (by
        intro q hq st t st' hqt
        have hq' := hsub _ q hq
        refine ⟨ih.elem _ _ _ _ _ _ _ noGap false hqt (hch q hq') hl (.inr ⟨rfl, rfl⟩), ?_⟩
        exact token_prefix (hsound.elem _ _ _ _ _ _ _ hqt)) _ _ _ hl'
      have hgap := hg _ _ _ hgap
      cases l with
      | none =>
        simp at h; obtain ⟨rfl, _⟩ := h
        exact .inl ⟨rfl, hgap⟩
      | some l =>
        have hpre := hpre l rfl
        dsimp only at h
        rw [if_neg (by simpa [isPrefixOf_iff] using hpre), replaceFirst_prefix hpre] at h
        obtain ⟨b, s4, hb, h⟩ := M.bind_ok.mp h
        have hB := ih.block _ _ _ _ _ _ _ _ gap sw hb hp (by simp; omega) hmx hmx
        right
        cases b with
        | none =>
          simp at h; obtain ⟨rfl, _⟩ := h
          exact .inl ⟨rfl, _, hgap, hB⟩
        | some b =>
          simp at h; obtain ⟨rfl, _⟩ := h
          right
          refine ⟨_, l.discoveries, _, rfl, hgap, hB, ?_⟩
          obtain ⟨z, rfl⟩ := hpre
          simp only [blockOut, BlockMatch.isValid, BlockContent.isValid, BlockMatch.discoveries, BlockContent.discoveries, List.drop_left,
            List.prefix_append_right_inj]
          split <;> simp
    · intro p deps s x st t st' gap sw h hp hl hm
      cases hp with
      | @token e card he =>
        simp only [containerToMatch] at h
        obtain ⟨tm, s1, ht, h⟩ := M.bind_ok.mp h
        simp at h; obtain ⟨rfl, _⟩ := h
        refine ⟨_, rfl, ?_⟩
        simp only [PContainer.Reads]
        exact ih.tok _ _ _ _ _ _ _ _ gap sw ht he hl hm
      | @rule r card hw =>
        simp only [containerToMatch] at h
        obtain ⟨tm, s1, ht, h⟩ := M.bind_ok.mp h
        simp at h; obtain ⟨rfl, _⟩ := h
        refine ⟨_, rfl, ?_⟩
        simp only [PContainer.Reads]
        exact rule_reads hw hl ht

end Verif.Lexer
