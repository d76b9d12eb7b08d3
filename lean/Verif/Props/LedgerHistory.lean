import Verif.Props.Ledger
import Verif.Lemmas.Signature

/-!
# Histories: C113, C114
-/

namespace Verif.Ledger
open Verif

variable (sha : Str → Hash)

theorem history_height {bs : List Block} (h : History sha bs) : ∀ b ∈ bs.head?, (b.height = 1 ↔ bs.length = 1) := by
  cases h with
  | first _ h1 _ => simp [h1]
  | @next b c rest hb h1 _ hr =>
    simp
    intro e
    have hc : c.height = 0 := by
      rw [h1] at e
      have : c.height + 1 - 1 = 1 - 1 := by rw [e]
      simpa using this
    have : ∃ bb : BlockBuilder, bb.now sha = .ok c := by cases hr <;> assumption
    obtain ⟨bb, hbb⟩ := this
    obtain ⟨hh, f, t, cr, p⟩ := bb
    by_cases h0 : hh = 0
    · simp [BlockBuilder.now, h0] at hbb
    · cases f <;> cases t <;> cases cr <;> cases p <;> simp [BlockBuilder.now, h0] at hbb
      all_goals (subst hbb; exact h0 hc)

/-- C113: the head binds the history: two histories whose heads have one hash and one height are the same, block by block and as far as the blocks are
hashed, down to the first block, and so they have the same number of blocks; or else two blocks at the same place are a collision of the hash function. -/
theorem C113_history (x y : Block) (xs ys : List Block) (hx : History sha (x :: xs)) (hy : History sha (y :: ys))
    (fx : ∀ b ∈ x :: xs, SecondsFit b.createdOn) (fy : ∀ b ∈ y :: ys, SecondsFit b.createdOn) (hh : x.height = y.height) (h : x.hash = y.hash) :
    (∃ (i : Nat) (a b : Block), (x :: xs)[i]? = some a ∧ (y :: ys)[i]? = some b ∧ Collision sha (blockText a) (blockText b)) ∨
    List.Forall₂ SameBlock (x :: xs) (y :: ys) := by
  have built : ∀ {b bs}, History sha (b :: bs) → ∃ bb : BlockBuilder, bb.now sha = .ok b := by
    intro b bs h
    cases h <;> assumption
  induction xs generalizing x y ys with
  | nil =>
    obtain ⟨bx, hbx⟩ := built hx
    obtain ⟨byy, hby⟩ := built hy
    rcases C28_block_binding sha bx byy x y hbx hby (by rw [hh]) (fx x (by simp)) (fy y (by simp)) h with hc | ⟨h1, h2, h3, h4, h5⟩
    · exact .inl ⟨0, x, y, rfl, rfl, hc⟩
    · right
      have e1 := (history_height sha hx x (by simp)).mpr rfl
      have e2 := (history_height sha hy y (by simp)).mp (by rw [← hh]; exact e1)
      have : ys = [] := by simpa using e2
      subst this
      exact .cons ⟨h, h1, h2, h3, h4, h5⟩ .nil
  | cons c xs ih =>
    obtain ⟨bx, hbx⟩ := built hx
    obtain ⟨byy, hby⟩ := built hy
    rcases C28_block_binding sha bx byy x y hbx hby (by rw [hh]) (fx x (by simp)) (fy y (by simp)) h with hc | ⟨h1, h2, h3, h4, h5⟩
    · exact .inl ⟨0, x, y, rfl, rfl, hc⟩
    · cases hx with
      | next _ a1 a2 a3 =>
        cases hy with
        | first _ _ b2 => rw [a2, b2] at h5; simp at h5
        | @next _ d rest _ b1 b2 b3 =>
          rw [a2, b2] at h5
          have hcd : c.height = d.height := by
            have : c.height + 1 - 1 = d.height + 1 - 1 := by rw [← a1, ← b1, hh]
            simpa using this
          rcases ih c d rest a3 b3 (fun b hb => fx b (by simp [hb])) (fun b hb => fy b (by simp [hb])) hcd (by simpa using h5) with
            ⟨i, a, b, c1, c2, c3⟩ | hs
          · exact .inl ⟨i + 1, a, b, by simpa using c1, by simpa using c2, c3⟩
          · exact .inr (.cons ⟨h, h1, h2, h3, h4, by rw [a2, b2]; exact h5⟩ hs)

/-- C113: two chains with one hash have the same identifier, root and history. -/
theorem C113_chain (b c : ChainBuilder) (p q : Chain) (x y : Block) (xs ys : List Block) (hb : b.now sha = .ok p) (hc : c.now sha = .ok q)
    (hpx : p.head = some x) (hqy : q.head = some y) (hx : History sha (x :: xs)) (hy : History sha (y :: ys))
    (fp : SecondsFit p.createdOn) (fq : SecondsFit q.createdOn)
    (fx : ∀ b ∈ x :: xs, SecondsFit b.createdOn) (fy : ∀ b ∈ y :: ys, SecondsFit b.createdOn) (hh : x.height = y.height) (h : p.hash = q.hash) :
    Collision sha (chainText p) (chainText q) ∨
    (∃ (i : Nat) (a b : Block), (x :: xs)[i]? = some a ∧ (y :: ys)[i]? = some b ∧ Collision sha (blockText a) (blockText b)) ∨
    (p.id = q.id ∧ p.root = q.root ∧ p.createdOn / 1000000000 = q.createdOn / 1000000000 ∧ List.Forall₂ SameBlock (x :: xs) (y :: ys)) := by
  rcases C28_chain_binding sha b c p q hb hc fp fq h with h1 | ⟨h1, h2, h3, h4⟩
  · exact .inl h1
  · rw [hpx, hqy] at h4
    rcases C113_history sha x y xs ys hx hy fx fy hh (by simpa using h4) with h5 | h5
    · exact .inr (.inl h5)
    · exact .inr (.inr ⟨h1, h2, h3, h5⟩)

/-- C113: the hash of a list of transactions binds their number, if it is the same, and their hashes in order. -/
theorem C113_transactions (l l' : List Transaction) (o o' : Transactions) (h : transactionsNow sha (some l) = .ok o)
    (h' : transactionsNow sha (some l') = .ok o') (hlen : l.length = l'.length) (he : o.hash = o'.hash) :
    Collision sha (l.map fun t => t.hash.bytes).flatten (l'.map fun t => t.hash.bytes).flatten ∨ l.map Transaction.hash = l'.map Transaction.hash := by
  have key : ∀ (l : List Transaction) (o : Transactions), transactionsNow sha (some l) = .ok o →
      o.hash = Hash.fromBytes sha (l.map fun t => t.hash.bytes).flatten := by
    intro l o h
    cases l with
    | nil => simp [transactionsNow, listNow] at h
    | cons a l =>
      simp [transactionsNow, listNow, C03_multi_is_concat] at h
      subst h
      simp
  have inj : ∀ (l l' : List Transaction), l.length = l'.length → (l.map fun t => t.hash.bytes).flatten = (l'.map fun t => t.hash.bytes).flatten →
      l.map Transaction.hash = l'.map Transaction.hash := by
    intro l
    induction l with
    | nil => intro l' hl _; cases l' with
      | nil => rfl
      | cons => simp at hl
    | cons a l ih =>
      intro l' hl he
      cases l' with
      | nil => simp at hl
      | cons b l' =>
        simp only [List.map_cons, List.flatten_cons] at he
        obtain ⟨e1, e2⟩ := List.append_inj he (by simp)
        simp only [List.map_cons, bytes_injective e1, ih l' (by simpa using hl) e2]
  have hlf : ∀ l : List Transaction, (l.map fun t => t.hash.bytes).flatten.length = 64 * l.length := by
    intro l
    induction l with
    | nil => rfl
    | cons a l ih => simp only [List.map_cons, List.flatten_cons, List.length_append, ih, bytes_len, List.length_cons]; omega
  rw [key l o h, key l' o' h'] at he
  by_cases hone : l.length = 1
  · right
    obtain ⟨a, rfl⟩ := List.length_eq_one_iff.mp hone
    obtain ⟨b, rfl⟩ := List.length_eq_one_iff.mp (hlen ▸ hone)
    simpa [fromBytes_bytes] using he
  · rcases eq_or_collision sha (by rw [hlf]; omega) (by rw [hlf, ← hlen]; omega) he with e | e
    · exact .inr (inj l l' hlen e)
    · exact .inl e

/-! ## C115: where the money comes from -/

theorem trx_hash {t : Transaction} (h : BuiltTrx sha t) : t.hash = Hash.fromBytes sha (transactionText t) := by
  obtain ⟨_, h, _⟩ := h
  cases t with
  | mk hh c a =>
    simp [transactionNow, Transaction.content, Transaction.auth] at h
    simp [Transaction.hash, transactionText, Transaction.content, Transaction.auth, ← h, C03_multi_is_concat]

/-- C115: the hash of a transaction binds its provenance: two transactions with one hash have the same way down to the genesis, transaction by
transaction and as far as they are hashed, and it ends in units with the same content and owner; or else two of the texts which were hashed on the two
ways are a collision. -/
theorem C115_provenance (t t' : Transaction) (l l' : List Transaction) (u u' : GUnit) (h : Provenance sha t l u) (h' : Provenance sha t' l' u')
    (he : t.hash = t'.hash) :
    (∃ x ∈ provenanceTexts l u, ∃ y ∈ provenanceTexts l' u', Collision sha x y) ∨
    (List.Forall₂ SameTrx l l' ∧ u.hash = u'.hash ∧ u.content.hash = u'.content.hash ∧ u.owner.hash = u'.owner.hash) := by
  have built : ∀ {t l u}, Provenance sha t l u → BuiltTrx sha t ∧ ∃ rest, l = t :: rest := by
    intro t l u h
    cases h with
    | unit h _ _ => exact ⟨h, [], rfl⟩
    | next h _ _ => exact ⟨h, _, rfl⟩
  have step : ∀ {t t' l l' u u'}, Provenance sha t l u → Provenance sha t' l' u' → t.hash = t'.hash →
      (∃ x ∈ provenanceTexts l u, ∃ y ∈ provenanceTexts l' u', Collision sha x y) ∨
        (SameTrx t t' ∧ t.content.origin.hash = t'.content.origin.hash) := by
    intro t t' l l' u u' h h' he
    obtain ⟨b, r, rfl⟩ := built h
    obtain ⟨b', r', rfl⟩ := built h'
    rcases C28_transaction_binding sha _ _ _ _ t t' b.2.1 b'.2.1 (by intro e; exact b.2.2.1 (by simp [e])) (by intro e; exact b'.2.2.1 (by simp [e])) he with
      hc | ⟨h1, h2⟩
    · exact .inl ⟨_, by simp [provenanceTexts], _, by simp [provenanceTexts], hc⟩
    · obtain ⟨cb, hcb⟩ := b.1
      obtain ⟨cb', hcb'⟩ := b'.1
      rcases C28_content_binding sha cb cb' _ _ hcb hcb' b.2.2.2.2 b'.2.2.2.2 h1 with hc | ⟨a1, a2, a3, a4, a5⟩
      · exact .inl ⟨contentText t.content, by simp [provenanceTexts], contentText t'.content, by simp [provenanceTexts], hc⟩
      · exact .inr ⟨⟨he, h2, a1, a2, a4, a5⟩, a3⟩
  have mixed : ∀ {t t' : Transaction} {l' u u'}, (∃ c o, gunitNow sha c o = .ok u) → Provenance sha t' l' u' → u.hash = t'.hash →
      ∃ y ∈ provenanceTexts l' u', Collision sha (gunitText u) y := by
    intro t t' l' u u' hu h' he
    obtain ⟨b', r', rfl⟩ := built h'
    obtain ⟨c, o, hu⟩ := hu
    have hk : u.hash = Hash.fromBytes sha (gunitText u) := by
      cases c <;> cases o <;> simp [gunitNow] at hu
      subst hu
      simp [gunitText, C03_multi_is_concat]
    rw [hk, trx_hash sha b'] at he
    rcases eq_or_collision sha (by simp [gunitText]) (by simp [transactionText]; intro e; exact b'.2.2.1 (by simp [e])) he with e | e
    · have := congrArg List.length e
      simp [gunitText, transactionText] at this
      have h64 := b'.2.2.2.1
      omega
    · exact ⟨transactionText t', by simp [provenanceTexts], e⟩
  induction h generalizing t' l' with
  | @unit t u hb ho hu =>
    rcases step (.unit hb ho hu) h' he with hc | ⟨h1, h2⟩
    · exact .inl hc
    · cases h' with
      | @unit t' u' hb' ho' hu' =>
        rw [ho, ho'] at h2
        obtain ⟨c, o, hu⟩ := hu
        obtain ⟨c', o', hu'⟩ := hu'
        rcases C28_unit_binding sha _ _ _ _ u u' hu hu' h2 with hc | ⟨a1, a2⟩
        · exact .inl ⟨gunitText u, by simp [provenanceTexts], gunitText u', by simp [provenanceTexts], hc⟩
        · exact .inr ⟨.cons h1 .nil, h2, a1, a2⟩
      | @next _ t2 l2 _ hb' ho' hp' =>
        rw [ho, ho'] at h2
        obtain ⟨y, hy, hc⟩ := mixed (t := t) hu hp' h2
        refine .inl ⟨gunitText u, by simp [provenanceTexts], y, ?_, hc⟩
        simp only [provenanceTexts, List.flatMap_cons, List.append_assoc, List.mem_append] at hy ⊢
        exact .inr hy
  | @next t t1 l1 u hb ho hp ih =>
    rcases step (.next hb ho hp) h' he with hc | ⟨h1, h2⟩
    · exact .inl hc
    · cases h' with
      | @unit _ _ hb' ho' hu' =>
        rw [ho, ho'] at h2
        obtain ⟨y, hy, hc⟩ := mixed (t := t) hu' hp h2.symm
        refine .inl ⟨y, ?_, gunitText u', by simp [provenanceTexts], ?_⟩
        · simp only [provenanceTexts, List.flatMap_cons, List.append_assoc, List.mem_append] at hy ⊢
          exact .inr hy
        · exact ⟨fun e => hc.1 e.symm, hc.2.symm⟩
      | @next _ t2 l2 _ hb' ho' hp' =>
        rw [ho, ho'] at h2
        rcases ih t2 l2 hp' h2 with ⟨x, hx, y, hy, hc⟩ | ⟨a1, a2⟩
        · refine .inl ⟨x, ?_, y, ?_, hc⟩
          · simp only [provenanceTexts, List.flatMap_cons, List.append_assoc, List.mem_append] at hx ⊢
            exact .inr hx
          · simp only [provenanceTexts, List.flatMap_cons, List.append_assoc, List.mem_append] at hy ⊢
            exact .inr hy
        · exact .inr ⟨.cons h1 a1, a2⟩

theorem hexEncode_len (s : Str) : (Hash.hexEncode s).length = 2 * s.length := by
  induction s with
  | nil => rfl
  | cons a s ih => simp [Hash.hexEncode] at ih ⊢; omega

theorem b64Encode_len (s : Str) : s.length ≤ (Codec.b64Encode s).length := by
  fun_induction Codec.b64Encode s <;> simp <;> omega

/-- C115: the text of every ring signature is longer than a hash, so that every authorization meets the condition of C115. -/
theorem C115_authorization {L : Nat} {P : Type} [AddCommGroup P] [DecidableEq P] [Fact L.Prime] (c : Signature.Curve L P) (rs : Signature.RingSig L P) :
    64 < (rs.toStr c).length := by
  refine lt_of_lt_of_le ?_ (b64Encode_len _)
  simp only [List.length_append, List.length_cons, Signature.scalarStr, hexEncode_len, c.encS_len]
  omega

/-! ## C114: the rules of a ledger -/

/-- C114 (violation): an origin can be spent any number of times, in one block: for every origin and every list of owners, amounts and authorizations
there is a block which contains one transaction of the origin for each of them. -/
theorem C114_double_spend_violation (o : Origin) (spends : List (Ring × Hash × Hash × Time × Str)) (hne : spends ≠ []) (height : UInt64) (hh : height ≠ 0)
    (fees : Ring) (time : Time) (previous : Option Hash) :
    ∃ txs l blk, transactionsNow sha (some l) = .ok txs ∧ BlockBuilder.now sha ⟨height, some fees, some txs, some time, previous⟩ = .ok blk ∧
      blk.transactions.list = l ∧
      List.Forall₂ (fun s t => t.content.origin = o ∧ t.content.owner = s.1 ∧ t.content.amount = s.2.1 ∧ t.auth = s.2.2.2.2 ∧
        ∃ c, ContentBuilder.now sha ⟨some s.1, some s.2.1, some o, some s.2.2.1, some s.2.2.2.1⟩ = .ok c ∧
          transactionNow sha (some c) (some s.2.2.2.2) = .ok t) spends l := by
  have hl : ∃ l, List.Forall₂ (fun (s : Ring × Hash × Hash × Time × Str) (t : Transaction) => t.content.origin = o ∧ t.content.owner = s.1 ∧
      t.content.amount = s.2.1 ∧ t.auth = s.2.2.2.2 ∧
        ∃ c, ContentBuilder.now sha ⟨some s.1, some s.2.1, some o, some s.2.2.1, some s.2.2.2.1⟩ = .ok c ∧
          transactionNow sha (some c) (some s.2.2.2.2) = .ok t) spends l := by
    clear hne
    induction spends with
    | nil => exact ⟨[], .nil⟩
    | cons s spends ih =>
      obtain ⟨l, hl⟩ := ih
      refine ⟨_ :: l, .cons ⟨?_, ?_, ?_, ?_, _, rfl, rfl⟩ hl⟩ <;> rfl
  obtain ⟨l, hl⟩ := hl
  have hln : l ≠ [] := by
    rintro rfl
    cases hl
    exact hne rfl
  obtain ⟨a, l, rfl⟩ := List.exists_cons_of_ne_nil hln
  refine ⟨⟨Hash.fromMultiBytes sha ((a :: l).map (fun e => e.hash.bytes)), a :: l⟩, a :: l, ?_⟩
  cases previous <;>
  exact ⟨_, by simp [transactionsNow, listNow], by simp [BlockBuilder.now, hh]; rfl, rfl, hl⟩

/-- C114 (violation): whatever the content is, every authorization is accepted, so also one which was not made by an owner of the origin, and one
which was made for another content. -/
theorem C114_unauthorized_violation (c : Content) (auth : Str) : ∃ t, transactionNow sha (some c) (some auth) = .ok t ∧ t.content = c ∧ t.auth = auth :=
  ⟨_, rfl, rfl, rfl⟩

/-- C114 (violation): nothing links a block to the block it names, nor a chain to its root: every height is accepted with every previous hash, or
with none, every time in every order, and every root with every head. -/
theorem C114_unlinked_violation (height : UInt64) (hh : height ≠ 0) (fees : Ring) (txs : Transactions) (time time' : Time) (previous : Option Hash)
    (id : Uuid) (root : Hash) :
    ∃ blk chain, BlockBuilder.now sha ⟨height, some fees, some txs, some time, previous⟩ = .ok blk ∧ blk.height = height ∧ blk.previous = previous ∧
      ChainBuilder.now sha ⟨some id, some root, some time', some blk⟩ = .ok chain ∧ chain.head = some blk ∧ chain.root = root := by
  cases previous <;>
  exact ⟨_, _, by simp [BlockBuilder.now, hh]; rfl, rfl, rfl, rfl, rfl, rfl⟩

/-- C114 (violation): more can be spent than there is: the amount of a secret may be larger than that of its origin. -/
theorem C114_amount_violation (o : Secret) (p : Transaction) (amount : UInt64) (ha : amount ≠ 0) (nonce : Str) (hn : nonce ≠ []) :
    ∃ s, SecretBuilder.now sha ⟨amount, nonce, some p, some o, none⟩ = .ok s ∧ s.amount = amount ∧ s.origin = some o := by
  have h0 : ¬ amount ≤ 0 := by
    intro h; exact ha (UInt64.le_antisymm h UInt64.zero_le)
  exact ⟨_, by simp only [SecretBuilder.now, h0, hn, if_false]; rfl, rfl, rfl⟩

section Examples

def exBlock1 : BlockBuilder := ⟨1, some exRing, some exTrx, some 1000000001, none⟩
def exBlock1' : BlockBuilder := ⟨1, some exRing, some exTrx, some 1000000002, none⟩

/-- C113: two different histories of two blocks which meet the hypotheses (the first blocks differ in the nanoseconds of the time). -/
example : ∃ a b c d, exBlock1.now exSha = .ok a ∧ exBlock1'.now exSha = .ok b ∧
    BlockBuilder.now exSha ⟨2, some exRing, some exTrx, some 5000000001, some a.hash⟩ = .ok c ∧
    BlockBuilder.now exSha ⟨2, some exRing, some exTrx, some 5000000009, some b.hash⟩ = .ok d ∧
    History exSha [c, a] ∧ History exSha [d, b] ∧ c.height = d.height ∧ c.hash = d.hash ∧ a.createdOn ≠ b.createdOn := by
  refine ⟨_, _, _, _, rfl, rfl, rfl, rfl, ?_, ?_, rfl, ?_, by decide⟩
  · exact .next ⟨⟨2, some exRing, some exTrx, some 5000000001, some _⟩, rfl⟩ rfl rfl (.first ⟨exBlock1, rfl⟩ rfl rfl)
  · exact .next ⟨⟨2, some exRing, some exTrx, some 5000000009, some _⟩, rfl⟩ rfl rfl (.first ⟨exBlock1', rfl⟩ rfl rfl)
  · rfl

/-- C115: a transaction of a transaction of a genesis unit. -/
def exUnit : GUnit := ⟨Hash.fromMultiBytes exSha [exHash.bytes, exRing.hash.bytes], ⟨exHash, 5, lit "n", 9, 8⟩, exRing⟩
def exSpend (o : Origin) : Content :=
  .mk (Hash.fromMultiBytes exSha [exRing.hash.bytes, exHash.bytes, o.hash.bytes, exHash.bytes, secondsText 7]) exRing exHash o exHash 7
def exSigned (c : Content) : Transaction := .mk (Hash.fromMultiBytes exSha [c.hash.bytes, lit "x"]) c (lit "x")

theorem exBuilt (o : Origin) : BuiltTrx exSha (exSigned (exSpend o)) :=
  ⟨⟨⟨some exRing, some exHash, some o, some exHash, some 7⟩, rfl⟩, rfl, by simp [exSigned, Transaction.auth, lit], by simp [exSigned, Transaction.auth, lit],
    by simp [SecondsFit, exSigned, exSpend, Transaction.content, Content.createdOn]⟩

example : ∃ t l u, Provenance exSha t l u ∧ l.length = 2 :=
  ⟨_, _, exUnit, .next (exBuilt (.trx (exSigned (exSpend (.genesis exUnit))))) rfl (.unit (exBuilt _) rfl ⟨some exUnit.content, some exRing, rfl⟩), rfl⟩

/-- C113 and C114: two transactions of one origin, with different amounts. -/
example : ∃ (c c' : Content) (t t' : Transaction) (txs txs' : Transactions),
    ContentBuilder.now exSha ⟨some exRing, some exHash, some (.genesis ⟨exHash, ⟨exHash, 5, lit "n", 9, 8⟩, exRing⟩), some exHash, some 7⟩ = .ok c ∧
    ContentBuilder.now exSha ⟨some exRing, some (exSha []), some (.genesis ⟨exHash, ⟨exHash, 5, lit "n", 9, 8⟩, exRing⟩), some exHash, some 7⟩ = .ok c' ∧
    transactionNow exSha (some c) (some (lit "x")) = .ok t ∧ transactionNow exSha (some c') (some (lit "x")) = .ok t' ∧
    c.amount ≠ c'.amount ∧ transactionsNow exSha (some [t, t']) = .ok txs ∧ transactionsNow exSha (some [t, t]) = .ok txs' :=
  ⟨_, _, _, _, _, _, rfl, rfl, rfl, rfl, by simp [Content.amount, exHash, exSha, Subtype.ext_iff, List.replicate], rfl, rfl⟩

end Examples

end Verif.Ledger
