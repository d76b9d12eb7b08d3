import Verif.Lemmas.Ledger

/-!
# The ledger: C23 - C28, C52, C53
-/

namespace Verif.Ledger
open Verif

variable (sha : Str → Hash)

/-! ## C23: builders and their mandatory parts -/

theorem C23_block (b : BlockBuilder) :
    Builds (b.now sha)
      (b.height ≠ 0 ∧ b.fees.isSome ∧ b.transactions.isSome ∧ b.createdOn.isSome)
      (fun o => o.height = b.height ∧ some o.fees = b.fees ∧ some o.transactions = b.transactions ∧
        some o.createdOn = b.createdOn ∧ o.previous = b.previous) := by
  obtain ⟨h, f, t, c, p⟩ := b
  unfold Builds
  by_cases hh : h = 0 <;> cases f <;> cases t <;> cases c <;> cases p <;>
    simp [BlockBuilder.now, hh]

theorem C23_chain (b : ChainBuilder) :
    Builds (b.now sha) (b.id.isSome ∧ b.root.isSome ∧ b.createdOn.isSome)
      (fun o => some o.id = b.id ∧ some o.root = b.root ∧ some o.createdOn = b.createdOn ∧ o.head = b.head) := by
  obtain ⟨i, r, c, h⟩ := b
  unfold Builds
  cases i <;> cases r <;> cases c <;> cases h <;> simp [ChainBuilder.now]

theorem C23_unit_content (b : UnitContentBuilder) :
    Builds (b.now sha)
      (b.amount ≠ 0 ∧ b.nonce ≠ [] ∧ ∃ a c, b.activatedOn = some a ∧ b.createdOn = some c ∧ c ≤ a)
      (fun o => o.amount = b.amount ∧ o.nonce = b.nonce ∧ some o.activatedOn = b.activatedOn ∧
        some o.createdOn = b.createdOn) := by
  obtain ⟨m, n, a, c⟩ := b
  unfold Builds
  have h0 : m ≤ 0 ↔ m = 0 := by
    constructor
    · intro h; exact UInt64.le_antisymm h (UInt64.zero_le)
    · rintro rfl; exact UInt64.le_refl _
  by_cases hm : m = 0
  · simp [UnitContentBuilder.now, h0, hm]
  by_cases hn : n = []
  · simp [UnitContentBuilder.now, h0, hm, hn]
  cases a with
  | none => simp [UnitContentBuilder.now, h0, hm, hn]
  | some a =>
    cases c with
    | none => simp [UnitContentBuilder.now, h0, hm, hn]
    | some c =>
      by_cases hac : a < c
      · simp [UnitContentBuilder.now, h0, hm, hn, hac]
      · simp [UnitContentBuilder.now, h0, hm, hn, hac]

theorem C23_unit (content : Option UnitContent) (owner : Option Ring) :
    Builds (gunitNow sha content owner) (content.isSome ∧ owner.isSome)
      (fun o => some o.content = content ∧ some o.owner = owner) := by
  unfold Builds
  cases content <;> cases owner <;> simp [gunitNow]

theorem anyUnitBefore_iff (t : Time) (l : List GUnit) :
    anyUnitBefore t l = true ↔ ∃ u ∈ l, u.content.createdOn < t := by
  induction l with
  | nil => simp [anyUnitBefore]
  | cons u l ih =>
    simp only [anyUnitBefore]
    split
    · rename_i h; simp [h]
    · rename_i h; rw [ih]; simp [h]

theorem C23_genesis (b : GenesisBuilder) :
    Builds (b.now sha)
      (b.fees.isSome ∧ ∃ us t, b.units = some us ∧ b.createdOn = some t ∧ ∀ u ∈ us.list, t ≤ u.content.createdOn)
      (fun o => some o.units = b.units ∧ some o.fees = b.fees ∧ some o.createdOn = b.createdOn) := by
  obtain ⟨us, f, t⟩ := b
  unfold Builds
  cases us with
  | none => simp [GenesisBuilder.now]
  | some us =>
    cases f with
    | none => simp [GenesisBuilder.now]
    | some f =>
      cases t with
      | none => simp [GenesisBuilder.now]
      | some t =>
        by_cases h : anyUnitBefore t us.list = true
        · simp only [GenesisBuilder.now, h, if_true]
          have := (anyUnitBefore_iff t us.list).mp h
          obtain ⟨u, hu, hlt⟩ := this
          refine ⟨?_, fun _ => trivial⟩
          rintro ⟨_, us', t', h1, h2, h3⟩
          simp at h1 h2; subst h1 h2
          exact absurd (h3 u hu) (Int.not_le.mpr hlt)
        · simp only [GenesisBuilder.now, h]
          refine ⟨fun _ => ⟨_, rfl, by simp⟩, ?_⟩
          intro hneg
          exfalso; apply hneg
          refine ⟨rfl, us, t, rfl, rfl, ?_⟩
          intro u hu
          by_contra hlt
          exact h ((anyUnitBefore_iff t us.list).mpr ⟨u, hu, Int.not_le.mp hlt⟩)

theorem C23_genesis_private (unit : Option GUnit) (pk : Option Str) :
    Builds (gprivateNow sha unit pk) (unit.isSome ∧ pk.isSome)
      (fun o => some o.unit = unit ∧ some o.pk = pk ∧ o.hash = Hash.fromMultiBytes sha [o.unit.hash.bytes, o.pk]) := by
  unfold Builds
  cases unit <;> cases pk <;> simp [gprivateNow]

theorem C23_content (b : ContentBuilder) :
    Builds (b.now sha)
      (b.owner.isSome ∧ b.amount.isSome ∧ b.origin.isSome ∧ b.external.isSome ∧ b.createdOn.isSome)
      (fun o => some o.owner = b.owner ∧ some o.amount = b.amount ∧ some o.origin = b.origin ∧
        some o.external = b.external ∧ some o.createdOn = b.createdOn) := by
  obtain ⟨o, a, g, e, c⟩ := b
  unfold Builds
  cases o <;> cases a <;> cases g <;> cases e <;> cases c <;>
    simp [ContentBuilder.now, Content.owner, Content.amount, Content.origin, Content.external,
      Content.createdOn]

/-- C23: a transaction origin needs a genesis unit or a transaction; when both are given, the genesis unit is
kept and the transaction is dropped. -/
theorem C23_origin (g : Option GUnit) (t : Option Transaction) :
    Builds (originNow g t) (g.isSome ∨ t.isSome)
      (fun o => match g, t with
        | some u, _ => o = .genesis u
        | none, some t => o = .trx t
        | none, none => False) := by
  unfold Builds
  cases g <;> cases t <;> simp [originNow]

theorem C23_transaction (content : Option Content) (auth : Option Str) :
    Builds (transactionNow sha content auth) (content.isSome ∧ auth.isSome)
      (fun o => some o.content = content ∧ some o.auth = auth) := by
  unfold Builds
  cases content <;> cases auth <;> simp [transactionNow, Transaction.content, Transaction.auth]

theorem C23_secret (b : SecretBuilder) :
    Builds (b.now sha) (b.amount ≠ 0 ∧ b.nonce ≠ [] ∧ b.pub.isSome)
      (fun o => o.amount = b.amount ∧ o.nonce = b.nonce ∧ some o.pub = b.pub ∧ o.origin = b.origin ∧
        o.sides = b.sides) := by
  obtain ⟨m, n, p, o, s⟩ := b
  unfold Builds
  have h0 : m ≤ 0 ↔ m = 0 := by
    constructor
    · intro h; exact UInt64.le_antisymm h (UInt64.zero_le)
    · rintro rfl; exact UInt64.le_refl _
  by_cases hm : m = 0 <;> by_cases hn : n = [] <;> cases p <;> cases o <;> cases s <;>
    simp [SecretBuilder.now, h0, hm, hn, Secret.amount, Secret.nonce, Secret.pub, Secret.origin, Secret.sides]

theorem C23_receipt (secret : Option Secret) (sig : Option Str) :
    Builds (receiptNow sha secret sig) (secret.isSome ∧ sig.isSome)
      (fun o => some o.secret = secret ∧ some o.sig = sig) := by
  unfold Builds
  cases secret <;> cases sig <;> simp [receiptNow]

theorem C23_transaction_private (pk : Option Str) (receipt : Option Receipt) :
    Builds (tprivateNow sha pk receipt) (pk.isSome ∧ receipt.isSome)
      (fun o => some o.pk = pk ∧ some o.receipt = receipt) := by
  unfold Builds
  cases pk <;> cases receipt <;> simp [tprivateNow]

theorem C23_identity (name : Str) (trx : Option IdTransactions) (genesis : Option TPrivates) :
    Builds (identityNow name trx genesis) (name ≠ [] ∧ trx.isSome)
      (fun o => o.name = name ∧ some o.trx = trx ∧ o.genesis = genesis) := by
  unfold Builds
  by_cases h : name = [] <;> cases trx <;> cases genesis <;> simp [identityNow, h]

theorem C23_identity_transactions (outgoing : Option TPrivates) (incoming : Option Secrets) :
    Builds (idTransactionsNow outgoing incoming) True
      (fun o => o.outgoing = outgoing ∧ o.incoming = incoming) := by
  unfold Builds
  cases outgoing <;> cases incoming <;> simp [idTransactionsNow]

theorem listNow_spec {α} (hashOf : α → Hash) (list : Option (List α)) :
    Builds (listNow sha hashOf list) (∃ l, list = some l ∧ l ≠ [])
      (fun o => some o.2 = list ∧ o.1 = Hash.fromBytes sha ((o.2.map (fun e => (hashOf e).bytes)).flatten)) := by
  unfold Builds
  rcases list with _ | l
  · simp [listNow]
  · rcases l with _ | ⟨a, l⟩
    · simp [listNow]
    · simp [listNow, C03_multi_is_concat]

/-- C23: the six list builders need a non-empty list and keep it as it is. -/
theorem C23_lists :
    (∀ l, Builds (ringsNow sha l) (∃ x, l = some x ∧ x ≠ []) (fun o => some o.list = l)) ∧
    (∀ l, Builds (unitsNow sha l) (∃ x, l = some x ∧ x ≠ []) (fun o => some o.list = l)) ∧
    (∀ l, Builds (transactionsNow sha l) (∃ x, l = some x ∧ x ≠ []) (fun o => some o.list = l)) ∧
    (∀ l, Builds (secretsNow sha l) (∃ x, l = some x ∧ x ≠ []) (fun o => some o.list = l)) ∧
    (∀ l, Builds (tprivatesNow sha l) (∃ x, l = some x ∧ x ≠ []) (fun o => some o.list = l)) := by
  refine ⟨fun l => ?_, fun l => ?_, fun l => ?_, fun l => ?_, fun l => ?_⟩
  · obtain ⟨h1, h2⟩ := listNow_spec sha Ring.hash l
    refine ⟨fun h => ?_, fun h => by simp [ringsNow, h2 h]⟩
    obtain ⟨o, e, p⟩ := h1 h
    exact ⟨⟨o.1, o.2⟩, by simp [ringsNow, e], p.1⟩
  · obtain ⟨h1, h2⟩ := listNow_spec sha GUnit.hash l
    refine ⟨fun h => ?_, fun h => by simp [unitsNow, h2 h]⟩
    obtain ⟨o, e, p⟩ := h1 h
    exact ⟨⟨o.1, o.2⟩, by simp [unitsNow, e], p.1⟩
  · obtain ⟨h1, h2⟩ := listNow_spec sha Transaction.hash l
    refine ⟨fun h => ?_, fun h => by simp [transactionsNow, h2 h]⟩
    obtain ⟨o, e, p⟩ := h1 h
    exact ⟨⟨o.1, o.2⟩, by simp [transactionsNow, e], p.1⟩
  · obtain ⟨h1, h2⟩ := listNow_spec sha Secret.hash l
    refine ⟨fun h => ?_, fun h => by simp [secretsNow, h2 h]⟩
    obtain ⟨o, e, p⟩ := h1 h
    exact ⟨.mk o.1 o.2, by simp [secretsNow, e], p.1⟩
  · obtain ⟨h1, h2⟩ := listNow_spec sha TPrivate.hash l
    refine ⟨fun h => ?_, fun h => by simp [tprivatesNow, h2 h]⟩
    obtain ⟨o, e, p⟩ := h1 h
    exact ⟨⟨o.1, o.2⟩, by simp [tprivatesNow, e], p.1⟩

/-! ## C24 -/

/-- C24: in every genesis made through the builders there is a unit, and each unit has a positive amount and
was created at or after the genesis and activated at or after its own creation. -/
theorem C24_genesis_units (gb : GenesisBuilder) (g : Genesis) (list : Option (List GUnit)) (us : Units)
    (hus : unitsNow sha list = .ok us) (hunits : gb.units = some us) (hg : gb.now sha = .ok g)
    (hcontent : ∀ u ∈ us.list, ∃ cb : UnitContentBuilder, cb.now sha = .ok u.content) :
    g.units.list ≠ [] ∧
    ∀ u ∈ g.units.list, 0 < u.content.amount ∧ g.createdOn ≤ u.content.createdOn ∧
      u.content.createdOn ≤ u.content.activatedOn := by
  have hgb := C23_genesis sha gb
  obtain ⟨hg1, hg2⟩ := hgb
  have hcond : (gb.fees.isSome ∧ ∃ us t, gb.units = some us ∧ gb.createdOn = some t ∧
      ∀ u ∈ us.list, t ≤ u.content.createdOn) := by
    by_contra hne
    rw [hg2 hne] at hg; simp at hg
  obtain ⟨o, ho, hpost⟩ := hg1 hcond
  rw [hg] at ho; simp at ho; subst ho
  obtain ⟨_, us', t, h1, h2, h3⟩ := hcond
  have e1 : us' = us := by rw [hunits] at h1; simpa using h1.symm
  subst e1
  have e2 : g.units = us' := by have := hpost.1; rw [hunits] at this; simpa using this
  have e3 : g.createdOn = t := by have := hpost.2.2; rw [h2] at this; simpa using this
  have hne : us'.list ≠ [] := by
    have hb := (C23_lists sha).2.1 list
    by_cases hc : ∃ x, list = some x ∧ x ≠ []
    · obtain ⟨o, ho, hp⟩ := hb.1 hc
      rw [hus] at ho; simp at ho; subst ho
      obtain ⟨x, hx, hxne⟩ := hc
      rw [hx] at hp; simp at hp; rw [hp]; exact hxne
    · rw [hb.2 hc] at hus; simp at hus
  rw [e2]
  refine ⟨hne, fun u hu => ?_⟩
  obtain ⟨cb, hcb⟩ := hcontent u hu
  have hb := C23_unit_content sha cb
  by_cases hc : cb.amount ≠ 0 ∧ cb.nonce ≠ [] ∧ ∃ a c, cb.activatedOn = some a ∧ cb.createdOn = some c ∧ c ≤ a
  · obtain ⟨o, ho, hp⟩ := hb.1 hc
    rw [hcb] at ho; simp at ho
    rw [← ho] at hp
    obtain ⟨p1, p2, p3, p4⟩ := hp
    obtain ⟨ha, _, a, c, q1, q2, q3⟩ := hc
    rw [q1] at p3; rw [q2] at p4
    simp at p3 p4
    refine ⟨?_, by rw [e3]; exact h3 u hu, by rw [p3, p4]; exact q3⟩
    rw [p1]; exact UInt64.pos_iff_ne_zero.mpr ha
  · rw [hb.2 hc] at hcb; simp at hcb

/-! ## C25 -/

/-- C25: a ring is built exactly when the list is given and its length lies between the bounds (inclusive); the
ring keeps the list. (List lengths are below `2^63` in Go.) -/
theorem C25_ring_bounds (min max : UInt64) (list : Option (List Hash))
    (hlen : ∀ l, list = some l → l.length < 2 ^ 63) :
    Builds (ringNow sha min max list)
      (∃ l, list = some l ∧ min.toNat ≤ l.length ∧ l.length ≤ max.toNat)
      (fun o => some o.list = list) := by
  unfold Builds
  cases list with
  | none => simp [ringNow]
  | some l =>
    have h := hlen l rfl
    have hn : (UInt64.ofNat l.length).toNat = l.length := by
      simp; omega
    simp only [ringNow]
    by_cases h1 : min > UInt64.ofNat l.length
    · have : min.toNat > l.length := by
        have := UInt64.lt_iff_toNat_lt.mp h1; rwa [hn] at this
      simp only [h1, if_true]
      refine ⟨?_, fun _ => trivial⟩
      rintro ⟨l', e, h2, _⟩; simp at e; subst e; omega
    · have h1' : min.toNat ≤ l.length := by
        have : ¬ (UInt64.ofNat l.length).toNat < min.toNat := fun hc => h1 (UInt64.lt_iff_toNat_lt.mpr hc)
        omega
      by_cases h2 : max < UInt64.ofNat l.length
      · have : max.toNat < l.length := by
          have := UInt64.lt_iff_toNat_lt.mp h2; rwa [hn] at this
        simp only [h1, h2, if_true, if_false]
        refine ⟨?_, fun _ => trivial⟩
        rintro ⟨l', e, _, h3⟩; simp at e; subst e; omega
      · have h2' : l.length ≤ max.toNat := by
          have : ¬ max.toNat < (UInt64.ofNat l.length).toNat := fun hc => h2 (UInt64.lt_iff_toNat_lt.mpr hc)
          omega
        simp only [h1, h2, if_false]
        refine ⟨fun _ => ⟨_, rfl, rfl⟩, fun hne => absurd ⟨l, rfl, h1', h2'⟩ hne⟩

/-- C25 (weakness): rings are not sets; one key may fill a whole ring, for every size allowed. -/
theorem C25_duplicates_accepted (min max : UInt64) (h : Hash) (n : Nat) (hn : n < 2 ^ 63)
    (h1 : min.toNat ≤ n) (h2 : n ≤ max.toNat) :
    ∃ r, ringNow sha min max (some (List.replicate n h)) = .ok r ∧ r.list = List.replicate n h := by
  have := (C25_ring_bounds sha min max (some (List.replicate n h)) (by simp [hn])).1
    ⟨_, rfl, by simpa using h1, by simpa using h2⟩
  obtain ⟨o, ho, hp⟩ := this
  exact ⟨o, ho, by simpa using hp⟩

/-! ## C26 -/

/-- C26: only the concatenation of amount, nonce and times is hashed: any two contents with one serialization
have one hash. -/
theorem C26_same_text_same_hash (a b : UnitContentBuilder) (x y : UnitContent)
    (ha : a.now sha = .ok x) (hb : b.now sha = .ok y) (h : unitContentText x = unitContentText y) :
    x.hash = y.hash := by
  have key : ∀ (a : UnitContentBuilder) (x : UnitContent), a.now sha = .ok x →
      x.hash = Hash.fromBytes sha (unitContentText x) := by
    intro a x h
    simp only [UnitContentBuilder.now] at h
    split at h
    · simp at h
    · split at h
      · simp at h
      · split at h
        · simp at h
        · split at h
          · simp at h
          · split at h
            · simp at h
            · simp at h; subst h
              simp [unitContentText, C03_multi_is_concat]
  rw [key a x ha, key b y hb, h]

/-- C26 (violation): for every amount, digit, nonce and times, moving the first digit of the nonce to
the end of the amount changes the amount ten-fold and keeps the hash, whatever the hash function. -/
theorem C26_move_digit (amount d : Nat) (nonce : Str) (act cre : Time) (hd : d < 10) (ha : 0 < amount)
    (hb : 10 * amount + d < 2 ^ 63) (hn : nonce ≠ []) (ht : cre ≤ act) :
    ∃ x y : UnitContent,
      UnitContentBuilder.now sha ⟨UInt64.ofNat amount, UInt8.ofNat (48 + d) :: nonce, some act, some cre⟩ = .ok x ∧
      UnitContentBuilder.now sha ⟨UInt64.ofNat (10 * amount + d), nonce, some act, some cre⟩ = .ok y ∧
      x.amount ≠ y.amount ∧ x.hash = y.hash := by
  have e1 : (UInt64.ofNat amount).toNat = amount := by simp; omega
  have e2 : (UInt64.ofNat (10 * amount + d)).toNat = 10 * amount + d := by simp; omega
  have h1 := (C23_unit_content sha ⟨UInt64.ofNat amount, UInt8.ofNat (48 + d) :: nonce, some act, some cre⟩).1
    ⟨fun h => by
      change UInt64.ofNat amount = 0 at h
      have : (UInt64.ofNat amount).toNat = 0 := by rw [h]; rfl
      omega, by simp, act, cre, rfl, rfl, ht⟩
  have h2 := (C23_unit_content sha ⟨UInt64.ofNat (10 * amount + d), nonce, some act, some cre⟩).1
    ⟨fun h => by
      change UInt64.ofNat (10 * amount + d) = 0 at h
      have : (UInt64.ofNat (10 * amount + d)).toNat = 0 := by rw [h]; rfl
      omega, hn, act, cre, rfl, rfl, ht⟩
  obtain ⟨x, hx, px⟩ := h1
  obtain ⟨y, hy, py⟩ := h2
  refine ⟨x, y, hx, hy, ?_, ?_⟩
  · rw [px.1, py.1]
    intro h
    have := congrArg UInt64.toNat h
    simp only at this
    omega
  · apply C26_same_text_same_hash sha _ _ _ _ hx hy
    have t1 : x.activatedOn = act := by simpa using px.2.2.1
    have t2 : x.createdOn = cre := by simpa using px.2.2.2
    have t3 : y.activatedOn = act := by simpa using py.2.2.1
    have t4 : y.createdOn = cre := by simpa using py.2.2.2
    unfold unitContentText
    rw [px.1, py.1, px.2.1, py.2.1, t1, t2, t3, t4,
      uintText_small (by rw [e1]; omega), uintText_small (by rw [e2]; omega), e1, e2,
      itoaNat_snoc ha hd]
    simp

/-- C26: the example of the property text, with its two different amounts. -/
example : ∃ x y : UnitContent,
      UnitContentBuilder.now sha ⟨1, lit "23", some 7, some 5⟩ = .ok x ∧
      UnitContentBuilder.now sha ⟨12, lit "3", some 7, some 5⟩ = .ok y ∧
      x.amount ≠ y.amount ∧ x.hash = y.hash :=
  C26_move_digit sha 1 2 (lit "3") 7 5 (by decide) (by decide) (by decide) (by decide) (by decide)

/-! ## C27 -/

/-- C27 (violation): the hash of a receipt depends on nothing. -/
theorem C27_receipt_hash_constant (s s' : Option Secret) (g g' : Option Str) (r r' : Receipt)
    (h : receiptNow sha s g = .ok r) (h' : receiptNow sha s' g' = .ok r') :
    r.hash = r'.hash ∧ r.hash = sha [] := by
  have key : ∀ (s : Option Secret) (g : Option Str) (r : Receipt), receiptNow sha s g = .ok r →
      r.hash = sha [] := by
    intro s g r h
    cases s <;> cases g <;> simp [receiptNow] at h
    subst h; simp [C03_multi_is_concat, Hash.fromBytes]
  exact ⟨by rw [key s g r h, key s' g' r' h'], key s g r h⟩

/-- C27 (violation): the same for private transactions, and so for lists of them of equal length. -/
theorem C27_private_hash_constant (k k' : Option Str) (g g' : Option Receipt) (r r' : TPrivate)
    (h : tprivateNow sha k g = .ok r) (h' : tprivateNow sha k' g' = .ok r') :
    r.hash = r'.hash ∧ r.hash = sha [] := by
  have key : ∀ (s : Option Str) (g : Option Receipt) (r : TPrivate), tprivateNow sha s g = .ok r →
      r.hash = sha [] := by
    intro s g r h
    cases s <;> cases g <;> simp [tprivateNow] at h
    subst h; simp [C03_multi_is_concat, Hash.fromBytes]
  exact ⟨by rw [key k g r h, key k' g' r' h'], key k g r h⟩

/-- C27: hence lists of private transactions are told apart by their length only. -/
theorem C27_privates_hash_length (l l' : List TPrivate) (o o' : TPrivates)
    (hl : ∀ p ∈ l, ∃ k g, tprivateNow sha k g = .ok p) (hl' : ∀ p ∈ l', ∃ k g, tprivateNow sha k g = .ok p)
    (hlen : l.length = l'.length)
    (h : tprivatesNow sha (some l) = .ok o) (h' : tprivatesNow sha (some l') = .ok o') : o.hash = o'.hash := by
  have key : ∀ (l : List TPrivate) (o : TPrivates), (∀ p ∈ l, ∃ k g, tprivateNow sha k g = .ok p) →
      tprivatesNow sha (some l) = .ok o →
      o.hash = Hash.fromBytes sha (List.replicate l.length (sha []).bytes).flatten := by
    intro l o hl h
    cases l with
    | nil => simp [tprivatesNow, listNow] at h
    | cons a l =>
      simp [tprivatesNow, listNow, C03_multi_is_concat] at h
      subst h
      simp only
      congr 1
      have : ∀ m : List TPrivate, (∀ p ∈ m, ∃ k g, tprivateNow sha k g = .ok p) →
          (m.map (fun e => e.hash.bytes)).flatten = (List.replicate m.length (sha []).bytes).flatten := by
        intro m hm
        induction m with
        | nil => rfl
        | cons b m ih =>
          obtain ⟨k, g, hb⟩ := hm b (by simp)
          simp only [List.map_cons, List.flatten_cons, List.length_cons, List.replicate_succ]
          rw [ih (fun p hp => hm p (by simp [hp])), (C27_private_hash_constant sha k k g g b b hb hb).2]
      have := this (a :: l) hl
      simpa using this
  rw [key l o hl h, key l' o' hl' h', hlen]

/-! ## C28 -/

theorem block_hash (b : BlockBuilder) (o : Block) (h : b.now sha = .ok o) :
    o.hash = Hash.fromBytes sha (blockText o) := by
  obtain ⟨hh, f, t, c, p⟩ := b
  by_cases h0 : hh = 0
  · simp [BlockBuilder.now, h0] at h
  · cases f <;> cases t <;> cases c <;> cases p <;> simp [BlockBuilder.now, h0] at h
    all_goals (subst h; simp [blockText, C03_multi_is_concat])

/-- C28: equal block hashes mean equal contents as far as they are hashed, or the two serializations are a
collision. The heights must be printed with equally many digits. -/
theorem C28_block_binding (b c : BlockBuilder) (x y : Block) (hb : b.now sha = .ok x) (hc : c.now sha = .ok y)
    (hdig : textLength x.height = textLength y.height)
    (hx : SecondsFit x.createdOn) (hy : SecondsFit y.createdOn) (h : x.hash = y.hash) :
    Collision sha (blockText x) (blockText y) ∨
    (x.height = y.height ∧ x.fees.hash = y.fees.hash ∧ x.transactions.hash = y.transactions.hash ∧
      x.createdOn / 1000000000 = y.createdOn / 1000000000 ∧ x.previous = y.previous) := by
  rw [block_hash sha b x hb, block_hash sha c y hc] at h
  have lx := uintText_len x.height
  have ly := uintText_len y.height
  have sx := secondsText_len x.createdOn
  have sy := secondsText_len y.createdOn
  unfold textLength at hdig
  have len : ∀ z : Block, (blockText z).length = (uintText z.height).length + 128 +
      (secondsText z.createdOn).length + (match z.previous with | some _ => 64 | none => 0) := by
    intro z
    unfold blockText
    cases z.previous <;> simp <;> omega
  rcases eq_or_collision sha (by rw [len]; omega) (by rw [len]; omega) h with e | e
  · right
    have hl := congrArg List.length e
    rw [len, len] at hl
    unfold blockText at e
    simp only [List.append_assoc] at e
    obtain ⟨e1, e⟩ := List.append_inj e hdig
    obtain ⟨e2, e⟩ := List.append_inj e (by simp)
    obtain ⟨e3, e⟩ := List.append_inj e (by simp)
    have hprev : (match x.previous with | some _ => 64 | none => 0) =
        (match y.previous with | some _ => 64 | none => 0) := by
      cases hxp : x.previous <;> cases hyp : y.previous <;> simp only [hxp, hyp] at hl ⊢ <;> omega
    obtain ⟨e4, e⟩ := List.append_inj e (by omega)
    refine ⟨uintText_injective e1, bytes_injective e2, bytes_injective e3,
      secondsText_injective hx hy e4, ?_⟩
    cases hxp : x.previous <;> cases hyp : y.previous <;> simp only [hxp, hyp] at e hprev ⊢
    · omega
    · omega
    · rw [bytes_injective e]
  · exact .inl e

theorem chain_hash (b : ChainBuilder) (o : Chain) (h : b.now sha = .ok o) :
    o.hash = Hash.fromBytes sha (chainText o) := by
  obtain ⟨i, r, c, p⟩ := b
  cases i <;> cases r <;> cases c <;> cases p <;> simp [ChainBuilder.now] at h
  all_goals (subst h; simp [chainText, C03_multi_is_concat])

/-- C28: the hash of a chain binds its identifier, root, creation second and the presence and hash of its
head. -/
theorem C28_chain_binding (b c : ChainBuilder) (x y : Chain) (hb : b.now sha = .ok x) (hc : c.now sha = .ok y)
    (hx : SecondsFit x.createdOn) (hy : SecondsFit y.createdOn) (h : x.hash = y.hash) :
    Collision sha (chainText x) (chainText y) ∨
    (x.id = y.id ∧ x.root = y.root ∧ x.createdOn / 1000000000 = y.createdOn / 1000000000 ∧
      x.head.map Block.hash = y.head.map Block.hash) := by
  rw [chain_hash sha b x hb, chain_hash sha c y hc] at h
  have sx := secondsText_len x.createdOn
  have sy := secondsText_len y.createdOn
  have hxi := x.id.2
  have hyi := y.id.2
  have len : ∀ z : Chain, (chainText z).length = 80 +
      (secondsText z.createdOn).length + (match z.head with | some _ => 64 | none => 0) := by
    intro z
    have := z.id.2
    unfold chainText
    cases z.head <;> simp [this] <;> omega
  rcases eq_or_collision sha (by rw [len]; omega) (by rw [len]; omega) h with e | e
  · right
    have hl := congrArg List.length e
    rw [len, len] at hl
    unfold chainText at e
    simp only [List.append_assoc] at e
    obtain ⟨e1, e⟩ := List.append_inj e (by omega)
    obtain ⟨e2, e⟩ := List.append_inj e (by simp)
    have hprev : (match x.head with | some _ => 64 | none => 0) =
        (match y.head with | some _ => 64 | none => 0) := by
      cases hxp : x.head <;> cases hyp : y.head <;> simp only [hxp, hyp] at hl ⊢ <;> omega
    obtain ⟨e4, e⟩ := List.append_inj e (by omega)
    refine ⟨Subtype.ext e1, bytes_injective e2, secondsText_injective hx hy e4, ?_⟩
    cases hxp : x.head <;> cases hyp : y.head <;> simp only [hxp, hyp] at e hprev ⊢ <;> first | rfl | skip
    · exact absurd hprev (by decide)
    · exact absurd hprev (by decide)
    · simp only [Option.map_some]; rw [bytes_injective e]
  · exact .inl e

/-- C28: the hash of a transaction content binds all the hashes it is made of and the creation second. -/
theorem C28_content_binding (b c : ContentBuilder) (x y : Content) (hb : b.now sha = .ok x)
    (hc : c.now sha = .ok y) (hx : SecondsFit x.createdOn) (hy : SecondsFit y.createdOn) (h : x.hash = y.hash) :
    Collision sha (contentText x) (contentText y) ∨
    (x.owner.hash = y.owner.hash ∧ x.amount = y.amount ∧ x.origin.hash = y.origin.hash ∧
      x.external = y.external ∧ x.createdOn / 1000000000 = y.createdOn / 1000000000) := by
  have key : ∀ (b : ContentBuilder) (o : Content), b.now sha = .ok o →
      o.hash = Hash.fromBytes sha (contentText o) := by
    intro b o h
    obtain ⟨ow, a, g, ex, cr⟩ := b
    cases ow <;> cases a <;> cases g <;> cases ex <;> cases cr <;> simp [ContentBuilder.now] at h
    subst h
    simp [contentText, C03_multi_is_concat, Content.hash, Content.owner, Content.amount, Content.origin,
      Content.external, Content.createdOn]
  rw [key b x hb, key c y hc] at h
  have sx := secondsText_len x.createdOn
  have sy := secondsText_len y.createdOn
  have len : ∀ z : Content, (contentText z).length = 256 + (secondsText z.createdOn).length := by
    intro z; simp [contentText]; omega
  rcases eq_or_collision sha (by rw [len]; omega) (by rw [len]; omega) h with e | e
  · right
    unfold contentText at e
    simp only [List.append_assoc] at e
    obtain ⟨e1, e⟩ := List.append_inj e (by simp)
    obtain ⟨e2, e⟩ := List.append_inj e (by simp)
    obtain ⟨e3, e⟩ := List.append_inj e (by simp)
    obtain ⟨e4, e⟩ := List.append_inj e (by simp)
    exact ⟨bytes_injective e1, bytes_injective e2, bytes_injective e3, bytes_injective e4,
      secondsText_injective hx hy e⟩
  · exact .inl e

/-- C28: the hash of a transaction binds its content hash and its authorization (whose text is not empty). -/
theorem C28_transaction_binding (c d : Option Content) (a b : Option Str) (x y : Transaction)
    (hx : transactionNow sha c a = .ok x) (hy : transactionNow sha d b = .ok y)
    (ax : x.auth ≠ []) (ay : y.auth ≠ []) (h : x.hash = y.hash) :
    Collision sha (transactionText x) (transactionText y) ∨
    (x.content.hash = y.content.hash ∧ x.auth = y.auth) := by
  have key : ∀ (c : Option Content) (a : Option Str) (x : Transaction), transactionNow sha c a = .ok x →
      x.hash = Hash.fromBytes sha (transactionText x) := by
    intro c a x h
    cases c <;> cases a <;> simp [transactionNow] at h
    subst h
    simp [transactionText, C03_multi_is_concat, Transaction.hash, Transaction.content, Transaction.auth]
  rw [key c a x hx, key d b y hy] at h
  have lx := List.length_pos_iff.mpr ax
  have ly := List.length_pos_iff.mpr ay
  rcases eq_or_collision sha (by simp [transactionText]; exact ax) (by simp [transactionText]; exact ay) h
    with e | e
  · right
    unfold transactionText at e
    obtain ⟨e1, e2⟩ := List.append_inj e (by simp)
    exact ⟨bytes_injective e1, e2⟩
  · exact .inl e

/-- C28: the hash of a genesis unit binds content and owner. -/
theorem C28_unit_binding (c d : Option UnitContent) (a b : Option Ring) (x y : GUnit)
    (hx : gunitNow sha c a = .ok x) (hy : gunitNow sha d b = .ok y) (h : x.hash = y.hash) :
    Collision sha (gunitText x) (gunitText y) ∨
    (x.content.hash = y.content.hash ∧ x.owner.hash = y.owner.hash) := by
  have key : ∀ (c : Option UnitContent) (a : Option Ring) (x : GUnit), gunitNow sha c a = .ok x →
      x.hash = Hash.fromBytes sha (gunitText x) := by
    intro c a x h
    cases c <;> cases a <;> simp [gunitNow] at h
    subst h
    simp [gunitText, C03_multi_is_concat]
  rw [key c a x hx, key d b y hy] at h
  rcases eq_or_collision sha (by simp [gunitText]) (by simp [gunitText]) h with e | e
  · right
    unfold gunitText at e
    obtain ⟨e1, e2⟩ := List.append_inj e (by simp)
    exact ⟨bytes_injective e1, bytes_injective e2⟩
  · exact .inl e

/-- C28: the hash of a genesis binds fees, units and creation time; the fees must be printed with equally many
digits. -/
theorem C28_genesis_binding (b c : GenesisBuilder) (x y : Genesis) (hx : b.now sha = .ok x)
    (hy : c.now sha = .ok y) (hdig : textLength x.fees = textLength y.fees)
    (tx : NanosFit x.createdOn) (ty : NanosFit y.createdOn) (h : x.hash = y.hash) :
    Collision sha (genesisText x) (genesisText y) ∨
    (x.fees = y.fees ∧ x.units.hash = y.units.hash ∧ x.createdOn = y.createdOn) := by
  have key : ∀ (b : GenesisBuilder) (x : Genesis), b.now sha = .ok x →
      x.hash = Hash.fromBytes sha (genesisText x) := by
    intro b x h
    obtain ⟨u, f, t⟩ := b
    cases u <;> cases f <;> cases t <;> simp only [GenesisBuilder.now, reduceCtorEq] at h
    split at h
    · simp at h
    simp only [Out.ok.injEq] at h
    subst h
    simp [genesisText, C03_multi_is_concat]
  rw [key b x hx, key c y hy] at h
  have lx := uintText_len x.fees
  have ly := uintText_len y.fees
  have nx := nanosText_len x.createdOn
  have ny := nanosText_len y.createdOn
  unfold textLength at hdig
  rcases eq_or_collision sha (by simp [genesisText]; omega) (by simp [genesisText]; omega) h with e | e
  · right
    unfold genesisText at e
    simp only [List.append_assoc] at e
    obtain ⟨e1, e⟩ := List.append_inj e hdig
    obtain ⟨e2, e⟩ := List.append_inj e (by simp)
    exact ⟨uintText_injective e1, bytes_injective e2, nanosText_injective tx ty e⟩
  · exact .inl e

/-! ## C52, C53: transparent lists and no domain separation -/

theorem listNow_single {α} (hashOf : α → Hash) (e : α) :
    listNow sha hashOf (some [e]) = .ok (hashOf e, [e]) := by
  have : Hash.fromMultiBytes sha [(hashOf e).bytes] = hashOf e := by
    rw [C03_multi_is_concat]; simp [fromBytes_bytes]
  simp [listNow, this]

/-- C52 (violation): a list with one element has the hash of this element, for every kind of list: a ring of one
key is hashed as the key itself, a list of one ring as the ring, and so on. -/
theorem C52_single_element_hash :
    (∀ min max h r, ringNow sha min max (some [h]) = .ok r → r.hash = h) ∧
    (∀ e, ∃ o, ringsNow sha (some [e]) = .ok o ∧ o.hash = e.hash) ∧
    (∀ e, ∃ o, unitsNow sha (some [e]) = .ok o ∧ o.hash = e.hash) ∧
    (∀ e, ∃ o, transactionsNow sha (some [e]) = .ok o ∧ o.hash = e.hash) ∧
    (∀ e, ∃ o, secretsNow sha (some [e]) = .ok o ∧ o.hash = e.hash) := by
  refine ⟨?_, fun e => ⟨⟨e.hash, [e]⟩, by simp [ringsNow, listNow_single], rfl⟩,
    fun e => ⟨⟨e.hash, [e]⟩, by simp [unitsNow, listNow_single], rfl⟩,
    fun e => ⟨⟨e.hash, [e]⟩, by simp [transactionsNow, listNow_single], rfl⟩,
    fun e => ⟨.mk e.hash [e], by simp [secretsNow, listNow_single], rfl⟩⟩
  intro min max h r hr
  simp only [ringNow] at hr
  split at hr
  · simp at hr
  · split at hr
    · simp at hr
    · simp at hr; subst hr
      simp [C03_multi_is_concat, fromBytes_bytes]

/-- C53 (violation): objects of different kinds can have one hash: a ring of the two hashes of a unit's content and
owner has the hash of the unit. -/
theorem C53_unit_ring_confusion (c : UnitContent) (o : Ring) (u : GUnit)
    (hu : gunitNow sha (some c) (some o) = .ok u) :
    ∃ r, ringNow sha 0 2 (some [c.hash, o.hash]) = .ok r ∧ r.hash = u.hash := by
  simp [gunitNow] at hu
  subst hu
  refine ⟨⟨Hash.fromMultiBytes sha [c.hash.bytes, o.hash.bytes], [c.hash, o.hash]⟩, ?_, ?_⟩
  · simp only [ringNow]
    rw [if_neg (by simp only [List.length_cons, List.length_nil]; decide),
      if_neg (by simp only [List.length_cons, List.length_nil]; decide)]; rfl
  · rfl

/-- C53 (violation): a secret with an origin and no sides, and a secret with this origin as its only side and no
origin, are different and have one hash. -/
theorem C53_secret_origin_or_side (amount : UInt64) (nonce : Str) (p : Transaction) (o : Secret)
    (ha : amount ≠ 0) (hn : nonce ≠ []) :
    ∃ ss x y, secretsNow sha (some [o]) = .ok ss ∧
      SecretBuilder.now sha ⟨amount, nonce, some p, some o, none⟩ = .ok x ∧
      SecretBuilder.now sha ⟨amount, nonce, some p, none, some ss⟩ = .ok y ∧
      x.origin ≠ y.origin ∧ x.hash = y.hash := by
  obtain ⟨ss, h1, h2⟩ := (C52_single_element_hash sha).2.2.2.2 o
  have h0 : ¬ amount ≤ 0 := by
    intro h; exact ha (UInt64.le_antisymm h UInt64.zero_le)
  refine ⟨ss, _, _, h1, by simp only [SecretBuilder.now, h0, hn, if_false]; rfl,
    by simp only [SecretBuilder.now, h0, hn, if_false]; rfl, ?_, ?_⟩
  · simp [Secret.origin]
  · simp [Secret.hash, h2]

/-- C53 (violation): the origin of a transaction content can be exchanged for another object with this hash: the
kind of the origin (genesis unit or transaction) is not hashed. -/
theorem C53_origin_kind_not_hashed (b : ContentBuilder) (u : GUnit) (t : Transaction) (x : Content)
    (he : u.hash = t.hash) (hb : ContentBuilder.now sha { b with origin := some (.genesis u) } = .ok x) :
    ∃ y, ContentBuilder.now sha { b with origin := some (.trx t) } = .ok y ∧ x.hash = y.hash := by
  obtain ⟨ow, a, g, ex, cr⟩ := b
  cases ow <;> cases a <;> cases ex <;> cases cr <;> simp [ContentBuilder.now] at hb
  subst hb
  exact ⟨_, rfl, by simp [Content.hash, Origin.hash, he]⟩

/-! ## The hypotheses are met -/

section Examples

/-- A digest function for the examples. -/
def exSha (s : Str) : Hash := ⟨(s ++ List.replicate 64 7).take 64, by simp⟩
def exHash : Hash := ⟨List.replicate 64 9, by simp⟩
def exRing : Ring := ⟨exHash, [exHash]⟩
def exTrx : Transactions := ⟨exHash, []⟩

/-- C28: two blocks with equal hashes that meet all the hypotheses (here because they differ in the nanoseconds of
the time only). -/
example : ∃ x y, BlockBuilder.now exSha ⟨12, some exRing, some exTrx, some 1000000001, none⟩ = .ok x ∧
    BlockBuilder.now exSha ⟨12, some exRing, some exTrx, some 1000000002, none⟩ = .ok y ∧
    textLength x.height = textLength y.height ∧ SecondsFit x.createdOn ∧ SecondsFit y.createdOn ∧
    x.hash = y.hash ∧ x.createdOn ≠ y.createdOn := by
  refine ⟨_, _, rfl, rfl, rfl, by simp [SecondsFit], by simp [SecondsFit], ?_, by simp⟩
  rfl

/-- C24: a genesis built from one unit. -/
example : ∃ c u us g, UnitContentBuilder.now exSha ⟨5, lit "n", some 9, some 8⟩ = .ok c ∧
    gunitNow exSha (some c) (some exRing) = .ok u ∧ unitsNow exSha (some [u]) = .ok us ∧
    GenesisBuilder.now exSha ⟨some us, some 1, some 8⟩ = .ok g :=
  ⟨_, _, _, _, rfl, rfl, rfl, rfl⟩

/-- C25: bounds and lists on both sides. -/
example : (ringNow exSha 1 2 (some [exHash, exHash])).isOk = true ∧
    ringNow exSha 1 2 (some []) = .err ∧ ringNow exSha 1 2 (some [exHash, exHash, exHash]) = .err := by
  refine ⟨rfl, rfl, rfl⟩

end Examples

end Verif.Ledger
