import Verif.Protocol.Fhmqvc
import Verif.Spec.Fhmqvc
import Verif.Props.CryptoUtil
import Verif.Props.Sha256
import Mathlib.Data.ZMod.Basic
import Mathlib.Tactic.Ring
import Mathlib.Tactic.Abel

/-!
# C31: both parties of a handshake compute the same keys
-/

namespace Fastd.Protocol.Fhmqvc

open Fastd.Crypto Fastd.Spec.Fhmqvc
open Fastd.Util (divideKey secureMemequal leVal C52_exact)

/-- What is assumed of libuecc; `P` is the base point of the curve. -/
structure Ecc.Lawful {G : Type} [AddCommGroup G] (E : Ecc G) (P : G) : Prop where
  order : addOrderOf P = Spec.Fhmqvc.order
  sanitize : ∀ r, r.length = 32 → (E.sanitize r).length = 32 ∧ 8 ∣ le (E.sanitize r) ∧ 2 ^ 254 ≤ le (E.sanitize r) ∧ le (E.sanitize r) < 2 ^ 255
  gfMult : ∀ a b, (E.gfMult a b).length = 32 ∧ le (E.gfMult a b) ≡ le a * le b [MOD Spec.Fhmqvc.order]
  gfAdd : ∀ a b, (E.gfAdd a b).length = 32 ∧ le (E.gfAdd a b) ≡ le a + le b [MOD Spec.Fhmqvc.order]
  scalarmultBase : ∀ s, E.scalarmultBase s = le s • P
  scalarmult : ∀ s p, E.scalarmult s p = le s • p
  scalarmultBits : ∀ s p n, E.scalarmultBits s p n = (le s % 2 ^ n) • p
  add : ∀ p q, E.add p q = p + q
  double : ∀ p, E.double p = p + p
  isIdentity : ∀ p, E.isIdentity p = true ↔ p = 0
  store : ∀ p, (E.store p).length = 32
  load : ∀ n : Nat, E.load (E.store (n • P)) = some (n • P)

variable {G : Type} [AddCommGroup G] {E : Ecc G} {P : G}

theorem le_eq (b : Bytes) : le b = leVal b := by
  induction b with
  | nil => rfl
  | cons b l ih => simp [le, leVal, ih]

theorem le_append (a b : Bytes) : le (a ++ b) = le a + 256 ^ a.length * le b := by
  induction a with
  | nil => simp [le]
  | cons x a ih =>
    simp only [List.cons_append, le, ih, List.length_cons, pow_succ]
    ring

theorem le_zeros (n : Nat) : le (List.replicate n 0) = 0 := by
  induction n with
  | zero => rfl
  | succ n ih => simp [List.replicate_succ, le, ih]

theorem le_lt (b : Bytes) : le b < 256 ^ b.length := by
  induction b with
  | nil => simp [le]
  | cons x b ih =>
    simp only [le, List.length_cons, pow_succ]
    have := x.toNat_lt
    omega

theorem or80 (x : UInt8) : (x ||| 0x80).toNat = 128 + x.toNat % 128 := by
  have : ∀ n, n < 256 → (UInt8.ofNat n ||| 0x80).toNat = 128 + (UInt8.ofNat n).toNat % 128 := by decide +kernel
  have := this x.toNat x.toNat_lt
  simpa using this

theorem setBit_le (h : Bytes) (hl : h.length = 16) : le (setBit (h ++ List.replicate 16 0)) = coefficient h := by
  have e : h = h.take 15 ++ [h.getD 15 0] := by
    have h1 : h[15]? = some (h.getD 15 0) := by
      rw [List.getD_eq_getElem?_getD, List.getElem?_eq_getElem (by omega)]; rfl
    calc h = h.take 16 := by rw [List.take_of_length_le (by omega)]
      _ = h.take 15 ++ (h[15]?).toList := List.take_add_one
      _ = _ := by rw [h1]; rfl
  generalize h.getD 15 0 = x at e
  have hl' : (h.take 15).length = 15 := by simp [hl]
  generalize h.take 15 = t at e hl'
  subst e
  have e2 : setBit (t ++ [x] ++ List.replicate 16 0) = t ++ [x ||| 0x80] ++ List.replicate 16 0 := by
    unfold setBit
    rw [List.append_assoc, List.append_assoc, List.set_append_right _ _ (by omega), hl',
      List.getD_eq_getElem?_getD, List.getElem?_append_right (by omega), hl']
    rfl
  rw [e2, le_append, le_zeros, le_append, coefficient, le_append, hl']
  simp only [le, or80]
  have h1 := le_lt t
  rw [hl'] at h1
  have h2 := x.toNat_lt
  omega

/-- The key pair made from a secret key that is a multiple of 8. -/
structure IsPair (E : Ecc G) (P : G) (s : Nat) (k : Pair) : Prop where
  pub : k.pub = E.store (s • P)
  secret : s = 8 * le k.secret

theorem protocolInit_pair (L : E.Lawful P) {s : Bytes} {k : Pair} (h : protocolInit E s = some k) : IsPair E P (le s) k := by
  unfold protocolInit at h
  have h1 := C52_exact s
  rcases hd : divideKey s with ⟨ok, sec⟩
  rw [hd] at h h1
  cases ok with
  | false => simp at h
  | true =>
    simp at h
    subst h
    refine ⟨by rw [L.scalarmultBase], ?_⟩
    rw [le_eq, le_eq]
    exact (h1 rfl).symm

theorem derive_eq (n : Nat) (salt name A B X Y sigma : Bytes) (h1 : salt.length = 32) (h2 : sigma.length = 32)
    (h3 : A.length = 32) (h4 : B.length = 32) (h5 : X.length = 32) (h6 : Y.length = 32) (h7 : name.length < 2 ^ 28) :
    deriveKey n salt name A B X Y sigma =
      some (Spec.Sha256.hkdfExpand (Spec.Sha256.hkdfExtract salt sigma) (A ++ B ++ X ++ Y ++ name) n) := by
  unfold deriveKey
  have e1 := C47_extract salt sigma [] h1 (by omega)
  rw [List.append_nil, h2] at e1
  rw [e1]
  exact C47_expand _ _ n (hmac_length _ _) (by simp [h3, h4, h5, h6]; omega)

theorem smul_congr (L : E.Lawful P) {m n : Nat} (h : m ≡ n [MOD Spec.Fhmqvc.order]) : m • P = n • P := by
  rw [← L.order] at h
  exact (nsmul_eq_nsmul_iff_modEq).2 h

theorem octuple_eq (L : E.Lawful P) (p : G) : octuple E p = 8 • p := by
  unfold octuple
  rw [L.double, L.double, L.double]
  abel

/-- An ephemeral key is not the identity. -/
theorem ephemeral_ne (L : E.Lawful P) {s : Nat} (h8 : 8 ∣ s) (h1 : 2 ^ 254 ≤ s) (h2 : s < 2 ^ 255) : s • P ≠ 0 := by
  intro h
  have h3 := addOrderOf_dvd_of_nsmul_eq_zero h
  rw [L.order] at h3
  obtain ⟨k, rfl⟩ := h3
  have hk : k < 8 := by
    by_contra hk
    have : Spec.Fhmqvc.order * 8 ≤ Spec.Fhmqvc.order * k := Nat.mul_le_mul_left _ (by omega)
    have : (2:Nat) ^ 255 ≤ Spec.Fhmqvc.order * 8 := by decide
    omega
  have : ∀ k, k < 8 → 8 ∣ Spec.Fhmqvc.order * k → k = 0 := by decide
  rw [this k hk h8] at h1
  simp at h1

/-- The result that both parties should get. -/
noncomputable def result (E : Ecc G) (P : G) (a b x y : Nat) : Option (Bytes × Bytes) :=
  open Classical in
  if secret P E.store a b x y = 0 then none
  else some (E.store (secret P E.store a b x y), macKey P E.store a b x y)

theorem coefficient_mod (h : Bytes) : coefficient h % 2 ^ 128 = coefficient h := by
  unfold coefficient
  omega

theorem le_setBit (h : Bytes) (hl : h.length = 16) : le (setBit (h ++ List.replicate 16 0)) % 2 ^ 128 = coefficient h := by
  rw [setBit_le h hl, coefficient_mod]

section

variable {a b x y : Nat} {own hk : Pair} {peer : PeerKey G} {peerHk : Bytes}

/-- **C31**, initiator -/
theorem C31_initiator (L : E.Lawful P) (ha : IsPair E P a own) (hx : IsPair E P x hk)
    (hb : 8 ∣ b) (hpk : readKey E (E.store (b • P)) = some peer) (hy : 8 ∣ y) (hy1 : 2 ^ 254 ≤ y) (hy2 : y < 2 ^ 255) :
    makeShared E own true hk peer (E.store (y • P)) = some (result E P a b x y) := by
  have hpeer : peer = ⟨E.store (b • P), b • P⟩ := by
    unfold readKey at hpk
    rw [L.load] at hpk
    simp only at hpk
    split at hpk
    · exact (Option.some.inj hpk).symm
    · cases hpk
  subst hpeer
  unfold makeShared
  rw [L.load]
  have hyn := ephemeral_ne L hy hy1 hy2
  have e0 : E.isIdentity (y • P) = false := by
    rw [Bool.eq_false_iff]
    intro h
    exact hyn ((L.isIdentity _).1 h)
  have hh := C46_blocks [E.store (y • P), E.store (x • P), E.store (b • P), E.store (a • P)] (by simp [L.store]) (by simp)
  simp only [e0, if_true, ha.pub, hx.pub, hh, Option.bind_eq_bind, Option.bind_some, Bool.false_eq_true, if_false]
  set hash := Spec.Sha256.sha256 _ with hhash
  have hl : hash.length = 32 := spec_sha256_length _
  have hc : coefficients P E.store a b x y = (coefficient (hash.take 16), coefficient (hash.drop 16)) := by
    unfold coefficients
    simp only [hhash, List.flatten_cons, List.flatten_nil, List.append_nil, List.append_assoc]
  set d := coefficient (hash.take 16) with hd
  set e := coefficient (hash.drop 16) with he
  have hdl : le (setBit (hash.take 16 ++ List.replicate 16 0)) = d := setBit_le _ (by simp [hl])
  have hel : le (setBit (hash.drop 16 ++ List.replicate 16 0)) % 2 ^ 128 = e := le_setBit _ (by simp [hl])
  obtain ⟨b', rfl⟩ := hb
  obtain ⟨y', rfl⟩ := hy
  have hp : E.scalarmult (E.gfAdd (E.gfMult (setBit (hash.take 16 ++ List.replicate 16 0)) own.secret) hk.secret)
      (octuple E (E.add ((8 * y') • P) (E.scalarmultBits (setBit (hash.drop 16 ++ List.replicate 16 0)) ((8 * b') • P) 128))) =
      secret P E.store a (8 * b') x (8 * y') := by
    rw [L.scalarmult, octuple_eq L, L.add, L.scalarmultBits, hel]
    unfold secret
    rw [hc]
    simp only [← mul_nsmul, ← add_nsmul]
    apply smul_congr L
    have h1 : le (E.gfAdd (E.gfMult (setBit (hash.take 16 ++ List.replicate 16 0)) own.secret) hk.secret) ≡ d * le own.secret + le hk.secret
        [MOD Spec.Fhmqvc.order] :=
      (L.gfAdd _ _).2.trans (Nat.ModEq.add_right _ (by rw [← hdl]; exact (L.gfMult _ _).2))
    refine (Nat.ModEq.mul_left _ h1).trans ?_
    rw [show (x + d * a) = 8 * (d * le own.secret + le hk.secret) by rw [ha.secret, hx.secret]; ring]
    exact congrArg (· % Spec.Fhmqvc.order) (by ring)
  rw [hp]
  unfold result
  by_cases hz : secret P E.store a (8 * b') x (8 * y') = 0
  · rw [if_pos ((L.isIdentity _).2 hz), if_pos hz]; rfl
  · rw [if_neg (fun h => hz ((L.isIdentity _).1 h)), if_neg hz]
    rw [derive_eq 1 _ _ _ _ _ _ _ (by simp) (L.store _) (L.store _) (L.store _) (L.store _) (L.store _) (by simp)]
    simp [macKey]

/-- **C31**, responder -/
theorem C31_responder (L : E.Lawful P) (hb : IsPair E P b own) (hy : IsPair E P y hk)
    (ha : 8 ∣ a) (hpk : readKey E (E.store (a • P)) = some peer) (hx : 8 ∣ x) (hx1 : 2 ^ 254 ≤ x) (hx2 : x < 2 ^ 255) :
    makeShared E own false hk peer (E.store (x • P)) = some (result E P a b x y) := by
  have hpeer : peer = ⟨E.store (a • P), a • P⟩ := by
    unfold readKey at hpk
    rw [L.load] at hpk
    simp only at hpk
    split at hpk
    · exact (Option.some.inj hpk).symm
    · cases hpk
  subst hpeer
  unfold makeShared
  rw [L.load]
  have hxn := ephemeral_ne L hx hx1 hx2
  have e0 : E.isIdentity (x • P) = false := by
    rw [Bool.eq_false_iff]
    intro h
    exact hxn ((L.isIdentity _).1 h)
  have hh := C46_blocks [E.store (y • P), E.store (x • P), E.store (b • P), E.store (a • P)] (by simp [L.store]) (by simp)
  simp only [e0, hb.pub, hy.pub, hh, Option.bind_eq_bind, Option.bind_some, Bool.false_eq_true, if_false]
  set hash := Spec.Sha256.sha256 _ with hhash
  have hl : hash.length = 32 := spec_sha256_length _
  have hc : coefficients P E.store a b x y = (coefficient (hash.take 16), coefficient (hash.drop 16)) := by
    unfold coefficients
    simp only [hhash, List.flatten_cons, List.flatten_nil, List.append_nil, List.append_assoc]
  set d := coefficient (hash.take 16) with hd
  set e := coefficient (hash.drop 16) with he
  have hdl : le (setBit (hash.take 16 ++ List.replicate 16 0)) % 2 ^ 128 = d := le_setBit _ (by simp [hl])
  have hel : le (setBit (hash.drop 16 ++ List.replicate 16 0)) = e := setBit_le _ (by simp [hl])
  obtain ⟨a', rfl⟩ := ha
  obtain ⟨x', rfl⟩ := hx
  have hp : E.scalarmult (E.gfAdd (E.gfMult (setBit (hash.drop 16 ++ List.replicate 16 0)) own.secret) hk.secret)
      (octuple E (E.add ((8 * x') • P) (E.scalarmultBits (setBit (hash.take 16 ++ List.replicate 16 0)) ((8 * a') • P) 128))) =
      secret P E.store (8 * a') b (8 * x') y := by
    rw [L.scalarmult, octuple_eq L, L.add, L.scalarmultBits, hdl]
    unfold secret
    rw [hc]
    simp only [← mul_nsmul, ← add_nsmul]
    apply smul_congr L
    have h1 : le (E.gfAdd (E.gfMult (setBit (hash.drop 16 ++ List.replicate 16 0)) own.secret) hk.secret) ≡ e * le own.secret + le hk.secret
        [MOD Spec.Fhmqvc.order] :=
      (L.gfAdd _ _).2.trans (Nat.ModEq.add_right _ (by rw [← hel]; exact (L.gfMult _ _).2))
    refine (Nat.ModEq.mul_left _ h1).trans ?_
    rw [show (y + e * b) = 8 * (e * le own.secret + le hk.secret) by rw [hb.secret, hy.secret]; ring]
    exact congrArg (· % Spec.Fhmqvc.order) (by ring)
  rw [hp]
  unfold result
  by_cases hz : secret P E.store (8 * a') b (8 * x') y = 0
  · rw [if_pos ((L.isIdentity _).2 hz), if_pos hz]; rfl
  · rw [if_neg (fun h => hz ((L.isIdentity _).1 h)), if_neg hz]
    rw [derive_eq 1 _ _ _ _ _ _ _ (by simp) (L.store _) (L.store _) (L.store _) (L.store _) (L.store _) (by simp)]
    simp [macKey]

end

/-- Two parties: their configured secret keys `a` and `b`, and the random bytes `x` and `y` their handshake keys are made from. -/
structure Parties (E : Ecc G) where
  (a b x y : Bytes)
  (A B X Y : Pair)
  /-- what each party knows about the other -/
  (keyA keyB : PeerKey G)
  ha : protocolInit E a = some A
  hb : protocolInit E b = some B
  hx : x.length = 32 ∧ newHandshakeKey E x = some X
  hy : y.length = 32 ∧ newHandshakeKey E y = some Y
  hA : readKey E A.pub = some keyA
  hB : readKey E B.pub = some keyB

theorem newHandshakeKey_pair (L : E.Lawful P) {r : Bytes} {k : Pair} (h : newHandshakeKey E r = some k) : IsPair E P (le (E.sanitize r)) k :=
  protocolInit_pair L h

theorem IsPair.dvd {s : Nat} {k : Pair} (h : IsPair E P s k) : 8 ∣ s := ⟨_, h.secret⟩

/-- A handshake key is always made. -/
theorem C31_ephemeral (L : E.Lawful P) (r : Bytes) (hr : r.length = 32) : ∃ k, newHandshakeKey E r = some k := by
  have h := (L.sanitize r hr).2.1
  rw [le_eq] at h
  have h2 := (Fastd.Util.C52_divide (E.sanitize r)).2.2.2 h
  refine ⟨⟨(divideKey (E.sanitize r)).2, E.store (E.scalarmultBase (E.sanitize r))⟩, ?_⟩
  show (if (divideKey (E.sanitize r)).1 = true then _ else none) = _
  rw [if_pos h2]
  rfl

/-- **C31**: the initiator and the responder compute the same shared secret and the same handshake key, those given by the specification. -/
theorem C31_shared (L : E.Lawful P) (p : Parties E) :
    makeShared E p.A true p.X p.keyB p.Y.pub = some (result E P (le p.a) (le p.b) (le (E.sanitize p.x)) (le (E.sanitize p.y))) ∧
    makeShared E p.B false p.Y p.keyA p.X.pub = some (result E P (le p.a) (le p.b) (le (E.sanitize p.x)) (le (E.sanitize p.y))) := by
  have ha := protocolInit_pair L p.ha
  have hb := protocolInit_pair L p.hb
  have hx := newHandshakeKey_pair L p.hx.2
  have hy := newHandshakeKey_pair L p.hy.2
  have sx := L.sanitize _ p.hx.1
  have sy := L.sanitize _ p.hy.1
  have hA := p.hA
  have hB := p.hB
  rw [ha.pub] at hA
  rw [hb.pub] at hB
  constructor
  · rw [hy.pub]
    exact C31_initiator L ha hx hb.dvd hB sy.2.1 sy.2.2.1 sy.2.2.2
  · rw [hx.pub]
    exact C31_responder L hb hy ha.dvd hA sx.2.1 sx.2.2.1 sx.2.2.2

theorem expand_one_length (prk info : Bytes) : (Spec.Sha256.hkdfExpand prk info 1).length = 32 := by
  simp [Spec.Sha256.hkdfExpand, Spec.Sha256.T, hmac_length]

omit [AddCommGroup G] in
theorem readKey_key {k : Bytes} {pk : PeerKey G} (h : readKey E k = some pk) : pk.key = k := by
  unfold readKey at h
  split at h
  · split at h
    · cases h; rfl
    · cases h
  · cases h

/-- **C31**: from these, both parties compute the same session key for each method, that given by the specification. -/
theorem C31_session (L : E.Lawful P) (p : Parties E) {sigma shared : Bytes}
    (h : result E P (le p.a) (le p.b) (le (E.sanitize p.x)) (le (E.sanitize p.y)) = some (sigma, shared))
    (name : Bytes) (hn : name.length < 2 ^ 28) (n : Nat) :
    sessionKeyInitiator p.A p.X p.keyB p.Y.pub sigma shared name n =
      some (sessionKey P E.store (le p.a) (le p.b) (le (E.sanitize p.x)) (le (E.sanitize p.y)) name ((n + 31) / 32)) ∧
    sessionKeyResponder p.B p.Y p.keyA p.X.pub sigma shared name n =
      some (sessionKey P E.store (le p.a) (le p.b) (le (E.sanitize p.x)) (le (E.sanitize p.y)) name ((n + 31) / 32)) := by
  have ha := protocolInit_pair L p.ha
  have hb := protocolInit_pair L p.hb
  have hx := newHandshakeKey_pair L p.hx.2
  have hy := newHandshakeKey_pair L p.hy.2
  unfold result at h
  split at h
  · cases h
  · cases h
    unfold sessionKeyInitiator sessionKeyResponder
    rw [readKey_key p.hA, readKey_key p.hB, ha.pub, hb.pub, hx.pub, hy.pub]
    have hm : (macKey P E.store (le p.a) (le p.b) (le (E.sanitize p.x)) (le (E.sanitize p.y))).length = 32 := expand_one_length _ _
    have := derive_eq (blockCount n 32) _ name _ _ _ _ _ hm (L.store (secret P E.store (le p.a) (le p.b) (le (E.sanitize p.x)) (le (E.sanitize p.y))))
      (L.store (le (E.sanitize p.x) • P)) (L.store (le (E.sanitize p.y) • P)) (L.store (le p.a • P)) (L.store (le p.b • P)) hn
    exact ⟨this, this⟩

/-- **C31**: the input of the key derivation determines all four public keys, their order, and the method. -/
theorem C31_binding {A B X Y A' B' X' Y' name name' : Bytes} (h : ∀ k ∈ [A, B, X, Y, A', B', X', Y'], k.length = 32)
    (he : A ++ B ++ X ++ Y ++ name = A' ++ B' ++ X' ++ Y' ++ name') : A = A' ∧ B = B' ∧ X = X' ∧ Y = Y' ∧ name = name' := by
  simp only [List.mem_cons, List.not_mem_nil, or_false, forall_eq_or_imp, forall_eq] at h
  obtain ⟨h1, h2, h3, h4, h5, h6, h7, h8⟩ := h
  simp only [List.append_assoc] at he
  obtain ⟨e1, g1⟩ := List.append_inj he (h1.trans h5.symm)
  obtain ⟨e2, g2⟩ := List.append_inj g1 (h2.trans h6.symm)
  obtain ⟨e3, g3⟩ := List.append_inj g2 (h3.trans h7.symm)
  obtain ⟨e4, g4⟩ := List.append_inj g3 (h4.trans h8.symm)
  exact ⟨e1, e2, e3, e4, g4⟩

/-- The order of the public keys in the derivation of session keys is not that of the documentation (doc/source/crypto/fhmqvc.rst, line 82:
`A|B|X|Y|method`), unless the handshake keys are those of the parties. -/
theorem C31_documented_order_false {A B X Y name : Bytes} (h : ∀ k ∈ [A, B, X, Y], k.length = 32) (hne : A ≠ X) :
    X ++ Y ++ A ++ B ++ name ≠ A ++ B ++ X ++ Y ++ name := by
  intro he
  simp only [List.mem_cons, List.not_mem_nil, or_false, forall_eq_or_imp, forall_eq] at h
  obtain ⟨h1, h2, h3, h4⟩ := h
  exact hne (C31_binding (by simp [*]) he).1.symm

/-! ## The cache of the responder -/

/-- What is done with the cache of a peer: an initial handshake or a finish is handled with one of the own handshake keys, given by its serial number;
a session has been set up. -/
inductive CacheOp
  | update (serial : Nat) (peerHk : Bytes)
  | clear

variable (keys : Nat → Pair) (own : Pair) (peer : PeerKey G)

/-- The cache after some operations. -/
inductive CacheAfter (E : Ecc G) : Cache → Prop
  | start : CacheAfter E Cache.clear
  | update {c c' : Cache} {ok : Bool} (serial : Nat) (peerHk : Bytes) : CacheAfter E c → 0 < serial → peerHk.length = 32 →
      Cache.update E own peer serial (keys serial) peerHk c = some (ok, c') → CacheAfter E c'
  | clear {c : Cache} : CacheAfter E c → CacheAfter E Cache.clear

/-- The cache is empty, or holds the result for the keys it is labelled with. -/
def Cache.Good (E : Ecc G) (c : Cache) : Prop :=
  c.peerHk.length = 32 ∧ (c.serial = 0 ∨ makeShared E own false (keys c.serial) peer c.peerHk = some (some (c.sigma, c.shared)))

variable {keys own peer}

omit [AddCommGroup G] in
theorem update_cases {c : Cache} (hc : c.Good keys own peer E) {serial : Nat} (hs : 0 < serial) {peerHk : Bytes} (hl : peerHk.length = 32)
    {ok : Bool} {c' : Cache} (h : Cache.update E own peer serial (keys serial) peerHk c = some (ok, c')) :
    c'.Good keys own peer E ∧
      makeShared E own false (keys serial) peer peerHk = some (if ok then some (c'.sigma, c'.shared) else none) := by
  unfold Cache.update at h
  have key : ∀ h : (do match ← makeShared E own false (keys serial) peer peerHk with
        | none => return (false, c)
        | some (sigma, shared) => return (true, ⟨serial, peerHk, sigma, shared⟩) : Option (Bool × Cache)) = some (ok, c'),
      c'.Good keys own peer E ∧
        makeShared E own false (keys serial) peer peerHk = some (if ok then some (c'.sigma, c'.shared) else none) := by
    intro h
    cases hm : makeShared E own false (keys serial) peer peerHk with
    | none => rw [hm] at h; cases h
    | some r =>
      rw [hm] at h
      cases r with
      | none => cases h; exact ⟨hc, rfl⟩
      | some r => cases h; exact ⟨⟨hl, .inr hm⟩, rfl⟩
  by_cases he : c.serial = serial
  · rw [if_pos he] at h
    have hl' := hc.1
    rw [Fastd.Util.C50_memequal _ _ 32 (by omega) (by omega), List.take_of_length_le (by omega), List.take_of_length_le (by omega)] at h
    by_cases hk : c.peerHk = peerHk
    · simp only [hk, decide_true, Option.bind_eq_bind, Option.bind_some, if_true] at h
      cases h
      refine ⟨hc, ?_⟩
      rcases hc.2 with h0 | h0
      · omega
      · rw [he, hk] at h0
        exact h0
    · simp only [hk, decide_false, Option.bind_eq_bind, Option.bind_some, Bool.false_eq_true, if_false] at h
      exact key h
  · rw [if_neg he] at h
    exact key h

omit [AddCommGroup G] in
theorem cache_good {c : Cache} (h : CacheAfter keys own peer E c) : c.Good keys own peer E := by
  induction h with
  | start => exact ⟨by decide, .inl rfl⟩
  | update serial peerHk _ hs hl hu ih => exact (update_cases ih hs hl hu).1
  | clear => exact ⟨by decide, .inl rfl⟩

omit [AddCommGroup G] in
/-- **C31**: the result used by the responder, from the cache or not, is always that for the handshake keys in question. -/
theorem C31_cache {c : Cache} (h : CacheAfter keys own peer E c) {serial : Nat} (hs : 0 < serial) {peerHk : Bytes} (hl : peerHk.length = 32)
    {ok : Bool} {c' : Cache} (hu : Cache.update E own peer serial (keys serial) peerHk c = some (ok, c')) :
    makeShared E own false (keys serial) peer peerHk = some (if ok then some (c'.sigma, c'.shared) else none) :=
  (update_cases (cache_good h) hs hl hu).2

/-! ## An instance

The group of order `order` itself, written additively, satisfies all assumptions. -/

namespace Demo

def toLE : Nat → Nat → Bytes
  | 0, _ => []
  | n + 1, x => UInt8.ofNat x :: toLE n (x / 256)

theorem toLE_length (n x : Nat) : (toLE n x).length = n := by
  induction n generalizing x with
  | zero => rfl
  | succ n ih => simp [toLE, ih]

theorem le_toLE (n x : Nat) (h : x < 256 ^ n) : le (toLE n x) = x := by
  induction n generalizing x with
  | zero => simp at h; subst h; rfl
  | succ n ih =>
    simp only [toLE, le]
    rw [ih _ (by rw [pow_succ] at h; omega)]
    simp
    omega

def loadOf (x : Nat) : Option (Fin order) := if h : x < order then some ⟨x, h⟩ else none

theorem loadOf_eq (p : Fin order) : loadOf p.val = some p := dif_pos p.isLt

def toy : Ecc (Fin order) where
  sanitize r := (r.set 0 (r.getD 0 0 &&& 0xf8)).set 31 (r.getD 31 0 &&& 0x7f ||| 0x40)
  gfMult a b := toLE 32 ((le a * le b) % order)
  gfAdd a b := toLE 32 ((le a + le b) % order)
  scalarmultBase s := ⟨le s % order, Nat.mod_lt _ (by decide)⟩
  scalarmult s p := ⟨le s * p.val % order, Nat.mod_lt _ (by decide)⟩
  scalarmultBits s p n := ⟨le s % 2 ^ n * p.val % order, Nat.mod_lt _ (by decide)⟩
  add p q := ⟨(p.val + q.val) % order, Nat.mod_lt _ (by decide)⟩
  double p := ⟨2 * p.val % order, Nat.mod_lt _ (by decide)⟩
  isIdentity p := p.val == 0
  load b := loadOf (le b)
  store p := toLE 32 p.val

instance : NeZero order := ⟨by decide⟩

theorem val_nsmul (n : Nat) (p : Fin order) : (n • p).val = n * p.val % order := by
  induction n with
  | zero => simp
  | succ n ih =>
    rw [succ_nsmul, Fin.val_add, ih, Nat.mod_add_mod, Nat.succ_mul]

theorem toy_load (b : Bytes) : toy.load b = loadOf (le b) := rfl
theorem toy_store (p : Fin order) : toy.store p = toLE 32 p.val := rfl

theorem load_store (p : Fin order) : toy.load (toy.store p) = some p := by
  have e := le_toLE 32 p.val (Nat.lt_trans p.isLt (by decide))
  rw [toy_load, toy_store, e, loadOf_eq]

theorem sanitize_eq (r : Bytes) (hr : r.length = 32) :
    (toy.sanitize r).length = 32 ∧ 8 ∣ le (toy.sanitize r) ∧ 2 ^ 254 ≤ le (toy.sanitize r) ∧ le (toy.sanitize r) < 2 ^ 255 := by
  obtain ⟨x, r, rfl⟩ : ∃ x l, r = x :: l := by
    cases r with
    | nil => simp at hr
    | cons x l => exact ⟨_, _, rfl⟩
  rcases List.eq_nil_or_concat r with rfl | ⟨m, z, rfl⟩
  · simp at hr
  have hm : m.length = 30 := by simp at hr; omega
  have e : toy.sanitize (x :: (m ++ [z])) = (x &&& 0xf8) :: (m ++ [z &&& 0x7f ||| 0x40]) := by
    show List.set _ 31 _ = _
    have e1 : (x :: (m ++ [z])).getD 31 0 = z := by
      rw [List.getD_eq_getElem?_getD, List.getElem?_cons_succ, List.getElem?_append_right (by omega), hm]
      rfl
    rw [e1, List.set_cons_zero, List.set_cons_succ, List.set_append_right _ _ (by omega), hm]
    rfl
  rw [List.concat_eq_append, e]
  have h1 : ∀ n, n < 256 → (UInt8.ofNat n &&& 0xf8).toNat % 8 = 0 := by decide +kernel
  have h2 : ∀ n, n < 256 → (UInt8.ofNat n &&& 0x7f ||| 0x40).toNat < 128 ∧ 64 ≤ (UInt8.ofNat n &&& 0x7f ||| 0x40).toNat := by decide +kernel
  have h1 := h1 x.toNat x.toNat_lt
  have h2 := h2 z.toNat z.toNat_lt
  simp only [UInt8.ofNat_toNat] at h1 h2
  have h3 := le_lt m
  rw [hm] at h3
  refine ⟨by simp [hm], ?_⟩
  simp only [le, le_append, hm]
  have h4 := (x &&& 0xf8).toNat_lt
  generalize (x &&& 0xf8).toNat = x' at *
  generalize (z &&& 0x7f ||| 0x40).toNat = z' at *
  generalize le m = m' at *
  omega

theorem toy_lawful : toy.Lawful (⟨1, by decide⟩ : Fin order) where
  order := by
    refine Nat.dvd_antisymm (addOrderOf_dvd_of_nsmul_eq_zero (Fin.ext ?_)) ?_
    · rw [val_nsmul, Nat.mul_one, Nat.mod_self]; rfl
    · have h := addOrderOf_nsmul_eq_zero (⟨1, by decide⟩ : Fin order)
      have h' := congrArg Fin.val h
      rw [val_nsmul, Nat.mul_one] at h'
      exact Nat.dvd_of_mod_eq_zero h'
  sanitize r hr := sanitize_eq r hr
  gfMult a b := ⟨toLE_length _ _, by
    show le (toLE 32 _) ≡ _ [MOD _]
    rw [le_toLE _ _ (Nat.lt_trans (Nat.mod_lt _ (by decide)) (by decide))]
    exact Nat.mod_modEq _ _⟩
  gfAdd a b := ⟨toLE_length _ _, by
    show le (toLE 32 _) ≡ _ [MOD _]
    rw [le_toLE _ _ (Nat.lt_trans (Nat.mod_lt _ (by decide)) (by decide))]
    exact Nat.mod_modEq _ _⟩
  scalarmultBase s := Fin.ext (by rw [val_nsmul, Nat.mul_one]; rfl)
  scalarmult s p := Fin.ext (by rw [val_nsmul]; rfl)
  scalarmultBits s p n := Fin.ext (by rw [val_nsmul]; rfl)
  add p q := rfl
  double p := Fin.ext (by rw [Fin.val_add, ← Nat.two_mul]; rfl)
  isIdentity p := by
    show (p.val == 0) = true ↔ _
    rw [beq_iff_eq]
    exact ⟨fun h => Fin.ext h, fun h => by rw [h]; rfl⟩
  store p := toLE_length _ _
  load n := by
    generalize n • (⟨1, by decide⟩ : Fin order) = p
    exact load_store p

/-- The keys of two parties. -/
def parties : Option (Pair × Pair × Pair × Pair × PeerKey (Fin order) × PeerKey (Fin order)) := do
  let A ← protocolInit toy (8 :: List.replicate 31 3)
  let B ← protocolInit toy (16 :: List.replicate 31 5)
  let X ← newHandshakeKey toy (List.replicate 32 7)
  let Y ← newHandshakeKey toy (List.replicate 32 0xab)
  return (A, B, X, Y, ← readKey toy A.pub, ← readKey toy B.pub)

/-- They compute the same keys, and there is no failure. -/
example : (do
    let (A, B, X, Y, keyA, keyB) ← parties
    let (sigma, shared) ← (← makeShared toy A true X keyB Y.pub)
    let (sigma', shared') ← (← makeShared toy B false Y keyA X.pub)
    return (sigma == sigma', shared == shared', shared.length, A == B, X == Y)) = some (true, true, 32, false, false) := by
  decide +kernel

end Demo

end Fastd.Protocol.Fhmqvc
