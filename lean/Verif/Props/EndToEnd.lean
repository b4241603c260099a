import Verif.Props.Tunnel
import Verif.Props.Fhmqvc
import Verif.Props.MethodNames

/-!
# C111: from keys and a method name to packets

Two daemons that have each other's public keys, exchange handshake keys (C31) and agree on the name of a method (C27, C64) derive one secret, which is long
enough for the method, set up sessions from it (C108), and then each opens what the other one seals. The builds may differ: in the ciphers and methods they
contain, and in the implementations they choose.
-/

namespace Fastd.EndToEnd

open Fastd.Config.MethodNames Fastd.Method Fastd.Protocol.Fhmqvc
open Fastd.Config (Name)
open Fastd.Spec (Bytes)
open Fastd.Spec.Fhmqvc (le)

/-! ### Ciphers and methods by name -/

/-- The names of the ciphers -/
def cipherName : Spec.Suite.Cipher → Name
  | .null => [110, 117, 108, 108]  -- "null"
  | .salsa20 => [115, 97, 108, 115, 97, 50, 48]  -- "salsa20"
  | .salsa2012 => [115, 97, 108, 115, 97, 50, 48, 49, 50]  -- "salsa2012"
  | .aes128ctr => [97, 101, 115, 49, 50, 56, 45, 99, 116, 114]  -- "aes128-ctr"

/-- The methods made of ciphers with these names -/
def methodOf : Spec.Suite.Meth → Config.MethodNames.Meth
  | .cipherTest c => .cipherTest (cipherName c)
  | .genericGmac c => .genericGmac (cipherName c)
  | .genericUmac c => .genericUmac (cipherName c)
  | .genericPoly1305 c => .genericPoly1305 (cipherName c)
  | .composedGmac c m => .composedGmac (cipherName c) (cipherName m)
  | .composedUmac c m => .composedUmac (cipherName c) (cipherName m)

/-- A build: some of the ciphers, each available or not, with or without the MACs -/
def Build (e : Env) : Prop := ∀ c ∈ e.ciphers, ∃ k, c.name = cipherName k ∧ c.iv = k.ivLen

/-- The build that has everything -/
def full : Env := ⟨allCiphers, true, true⟩

theorem lookup_build {cs : List Config.MethodNames.Cipher} (h : ∀ c ∈ cs, ∃ k, c.name = cipherName k ∧ c.iv = k.ivLen) {n : Name} {iv : Nat}
    (hl : lookupIn cs n = some iv) : ∃ k, n = cipherName k ∧ iv = k.ivLen := by
  induction cs with
  | nil => cases hl
  | cons c cs ih =>
    rw [lookupIn] at hl
    split at hl
    · exact ih (fun c hc => h c (List.mem_cons_of_mem _ hc)) hl
    · rename_i hn
      split at hl
      · injection hl with hl
        obtain ⟨k, h1, h2⟩ := h c List.mem_cons_self
        exact ⟨k, by rw [← h1]; exact (not_not.1 hn).symm, by rw [← h2, hl]⟩
      · cases hl

theorem full_iv (k : Spec.Suite.Cipher) : full.iv (cipherName k) = some k.ivLen := by cases k <;> decide

theorem build_iv {e : Env} (h : Build e) {n : Name} {iv : Nat} (hl : e.iv n = some iv) : full.iv n = some iv ∧ ∃ k, n = cipherName k := by
  obtain ⟨k, rfl, rfl⟩ := lookup_build h hl
  exact ⟨full_iv k, k, rfl⟩

theorem build_nonced {e : Env} (h : Build e) {n : Name} (hn : Nonced e n) : Nonced full n ∧ ∃ k, n = cipherName k := by
  obtain ⟨iv, h1, h2⟩ := hn
  obtain ⟨h3, h4⟩ := build_iv h h1
  exact ⟨⟨iv, h3, h2⟩, h4⟩

theorem build_first {e : Env} (h : Build e) {n : Name} (hn : e.iv n = some 0 ∨ Nonced e n) :
    (full.iv n = some 0 ∨ Nonced full n) ∧ ∃ k, n = cipherName k := by
  rcases hn with hn | hn
  · exact ⟨Or.inl (build_iv h hn).1, (build_iv h hn).2⟩
  · exact ⟨Or.inr (build_nonced h hn).1, (build_nonced h hn).2⟩

theorem full_noPlus : NoPlus full := by
  intro c hc
  have : c = c ∧ c ∈ allCiphers := ⟨rfl, hc⟩
  obtain ⟨_, h⟩ := this
  simp only [allCiphers, List.mem_cons, List.not_mem_nil, or_false] at h
  rcases h with rfl | rfl | rfl | rfl <;> decide

theorem build_noPlus {e : Env} (h : Build e) : NoPlus e := by
  intro c hc
  obtain ⟨k, h1, _⟩ := h c hc
  rw [h1]
  cases k <;> decide

theorem cipherName_le (k : Spec.Suite.Cipher) : (cipherName k).length ≤ 10 := by cases k <;> decide

/-- What a name stands for in some build, it also stands for in the full one; it is short, and it is a method of known ciphers. -/
theorem denotes_build {e : Env} (h : Build e) {name : Name} {m : Config.MethodNames.Meth} (hd : Denotes e name m) :
    Denotes full name m ∧ name.length ≤ 60 ∧ ((∃ k, m = methodOf k) ∨ m = .null ∨ m = .nullL2tp) := by
  cases hd with
  | cipherTest h1 =>
    obtain ⟨h2, k, rfl⟩ := build_iv h h1
    have := cipherName_le k
    exact ⟨.cipherTest h2, by simp [sCipherTest]; omega, Or.inl ⟨.cipherTest k, rfl⟩⟩
  | @composedGmacCtr c p hg h1 h2 =>
    obtain ⟨h3, k, rfl⟩ := build_first h h1
    obtain ⟨h4, k', hk'⟩ := build_nonced h h2
    have l1 := cipherName_le k
    have l2 := cipherName_le k'
    rw [← hk', List.length_append] at l2
    exact ⟨.composedGmacCtr rfl h3 h4, by simp [sDashGmac]; omega, Or.inl ⟨.composedGmac k k', by rw [hk']; rfl⟩⟩
  | composedGmac hg h1 h2 hn =>
    obtain ⟨h3, k, rfl⟩ := build_first h h1
    obtain ⟨h4, k', rfl⟩ := build_nonced h h2
    have l1 := cipherName_le k
    have l2 := cipherName_le k'
    exact ⟨.composedGmac rfl h3 h4 hn, by simp [sPlusGmac]; omega, Or.inl ⟨.composedGmac k k', rfl⟩⟩
  | composedUmac hg h1 h2 =>
    obtain ⟨h3, k, rfl⟩ := build_first h h1
    obtain ⟨h4, k', rfl⟩ := build_nonced h h2
    have l1 := cipherName_le k
    have l2 := cipherName_le k'
    exact ⟨.composedUmac rfl h3 h4, by simp [sPlusUmac]; omega, Or.inl ⟨.composedUmac k k', rfl⟩⟩
  | @genericGcm p hg h1 =>
    obtain ⟨h4, k', hk'⟩ := build_nonced h h1
    have l2 := cipherName_le k'
    rw [← hk', List.length_append] at l2
    exact ⟨.genericGcm rfl h4, by simp [sGcm]; omega, Or.inl ⟨.genericGmac k', by rw [hk']; rfl⟩⟩
  | genericGmac hg h1 hn =>
    obtain ⟨h4, k', rfl⟩ := build_nonced h h1
    have l2 := cipherName_le k'
    exact ⟨.genericGmac rfl h4 hn, by simp [sPlusGmac]; omega, Or.inl ⟨.genericGmac k', rfl⟩⟩
  | genericPoly1305 h1 =>
    obtain ⟨h4, k', rfl⟩ := build_nonced h h1
    have l2 := cipherName_le k'
    exact ⟨.genericPoly1305 h4, by simp [sPoly1305]; omega, Or.inl ⟨.genericPoly1305 k', rfl⟩⟩
  | genericUmac hg h1 =>
    obtain ⟨h4, k', rfl⟩ := build_nonced h h1
    have l2 := cipherName_le k'
    exact ⟨.genericUmac rfl h4, by simp [sPlusUmac]; omega, Or.inl ⟨.genericUmac k', rfl⟩⟩
  | null => exact ⟨.null, by decide, Or.inr (Or.inl rfl)⟩
  | nullL2tp => exact ⟨.nullL2tp, by decide, Or.inr (Or.inr rfl)⟩

/-- **C111, methods.** If two builds accept the same name, they mean the same method by it; it is one of those of C108, or one of the two without keys. -/
theorem C111_method {e e' : Env} (h : Build e) (h' : Build e') (ps ps' : List Provider) (name : Name) (m m' : Config.MethodNames.Meth)
    (ha : createByName e ps name = .accept m) (ha' : createByName e' ps' name = .accept m') :
    m = m' ∧ name.length ≤ 60 ∧ ((∃ k, m = methodOf k) ∨ m = .null ∨ m = .nullL2tp) := by
  obtain ⟨h1, h2, h3⟩ := denotes_build h ((C64_accept e (build_noPlus h) ps name m).1 ha).2
  obtain ⟨h1', _, _⟩ := denotes_build h' ((C64_accept e' (build_noPlus h') ps' name m').1 ha').2
  exact ⟨denotes_functional full_noPlus h1 h1', h2, h3⟩

/-! ### Keys -/

theorem flatMap_length (l : List Nat) (f : Nat → Bytes) (n : Nat) (h : ∀ i, (f i).length = n) : (l.flatMap f).length = l.length * n := by
  induction l with
  | nil => simp
  | cons x xs ih => simp [List.flatMap_cons, h, ih, Nat.add_mul, Nat.add_comm]

theorem sessionKey_length {G : Type} [AddCommGroup G] (P : G) (enc : G → Bytes) (a b x y : Nat) (name : Bytes) (n : Nat) :
    (Spec.Fhmqvc.sessionKey P enc a b x y name n).length = n * 32 := by
  unfold Spec.Fhmqvc.sessionKey Spec.Sha256.hkdfExpand
  rw [flatMap_length _ _ 32 (fun i => by simp [Spec.Sha256.T, Fastd.Crypto.hmac_length]), List.length_range]

/-- Packets sealed by one end (with the library, sizes, session and counters given) are opened by the other one. -/
def Opens (m : Spec.Suite.Meth) (lib lib' : Suite.Lib) (maxBuffer : Nat) (s s' : Suite.Sess) (snd rcv : Common) : Prop :=
  ∀ (b : Buffer.Buf) (st : Bytes), b.WF → b.base.length % 16 = 0 → b.off % 16 = 0 → Suite.encryptHeadroom m ≤ b.off → Storage st maxBuffer →
    Buffer.alignto (Suite.encryptSize b.len m) 16 ≤ maxBuffer →
    ∃ out, Suite.encrypt lib s maxBuffer snd b st m = .ok (some (out, { snd with sendNonce := incrNonce snd.sendNonce })) ∧ out.WF ∧
      ∀ (b' : Buffer.Buf) (st' : Bytes) (encHeadroom : Nat) (now : Time), Received b' → b'.data = out.data → Storage st' maxBuffer →
        encHeadroom % 16 = 0 → Buffer.alignto (Suite.decryptSize encHeadroom b'.len m) 16 ≤ maxBuffer → rcv.isValid now = true →
        ∃ d r, Suite.decrypt lib' s' encHeadroom maxBuffer rcv now b' st' m = .ok d ∧ d.view = .payload b.data r (some false)

theorem fresh_receive (e compat compat' : Bool) (t t' splay splay' now : Time) (h : (Common.init e compat t splay).isValid now = true) :
    ∃ r, receive (Common.init e compat t splay) now (Common.init (!e) compat' t' splay').sendNonce = (.inOrder, r) := by
  unfold receive
  rw [if_pos h]
  have hv : isNonceValid (Common.init e compat t splay) now (Common.init (!e) compat' t' splay').sendNonce = some (-1) := by
    have hp : ¬ ((Common.init (!e) compat' t' splay').sendNonce[0] &&& (1 : UInt8) ≠ (Common.init e compat t splay).receiveNonce[0] &&& (1 : UInt8)) := by
      cases e
      · show ¬ ((lastByteNonce 3)[0] &&& (1 : UInt8) ≠ (lastByteNonce 1)[0] &&& (1 : UInt8)); decide
      · show ¬ ((lastByteNonce 2)[0] &&& (1 : UInt8) ≠ (lastByteNonce 0)[0] &&& (1 : UInt8)); decide
    have ha : nonceAge (Common.init e compat t splay).receiveNonce (Common.init (!e) compat' t' splay').sendNonce = -1 := by
      cases e <;> simp only [Common.init] <;> decide
    unfold isNonceValid
    rw [if_neg hp]
    simp only [ha]
    rfl
  rw [hv]
  exact ⟨_, rfl⟩

/-- **C111.** Two parties that know each other's public keys and exchange handshake keys, with builds that both accept the name of the method, compute the
same secrets (unless the result of the exchange is the neutral element, which both notice), mean the same method, derive the same session secret, can set up
their sessions with it, and the first packet of each of them, with any payload, is opened by the other one; for the packets after these see C110. -/
theorem C111_connect {G : Type} [AddCommGroup G] {E : Ecc G} {P : G} (L : E.Lawful P) (p : Parties E) {sigma shared : Bytes}
    (hres : result E P (le p.a) (le p.b) (le (E.sanitize p.x)) (le (E.sanitize p.y)) = some (sigma, shared))
    {env env' : Env} (hb : Build env) (hb' : Build env') (ps ps' : List Provider) (name : Name) (m : Spec.Suite.Meth) (m' : Config.MethodNames.Meth)
    (hm : createByName env ps name = .accept (methodOf m)) (hm' : createByName env' ps' name = .accept m')
    {lib lib' : Suite.Lib} {c : Spec.Suite.BlockCipher} (hl : Suite.LibOk lib c) (hl' : Suite.LibOk lib' c) (hpoly : lib'.poly1305 = lib.poly1305)
    (impls impls' : Suite.Impls) (hi : ∀ c, (impls.cipher c).supports c = true) (hi' : ∀ c, (impls'.cipher c).supports c = true)
    (maxBuffer : Nat) (hmax : maxBuffer ≤ 2 ^ 24) (h16 : 16 ≤ maxBuffer) (compat : Bool) (t t' splay splay' : Time) :
    m' = methodOf m ∧
    makeShared E p.A true p.X p.keyB p.Y.pub = some (some (sigma, shared)) ∧ makeShared E p.B false p.Y p.keyA p.X.pub = some (some (sigma, shared)) ∧
    ∃ secret, sessionKeyInitiator p.A p.X p.keyB p.Y.pub sigma shared name (Suite.keyLength m) = some secret ∧
      sessionKeyResponder p.B p.Y p.keyA p.X.pub sigma shared name (Suite.keyLength m) = some secret ∧
      (∃ s, Suite.SessionInit lib maxBuffer impls secret s m) ∧ (∃ s', Suite.SessionInit lib' maxBuffer impls' secret s' m) ∧
      ∀ s s', Suite.SessionInit lib maxBuffer impls secret s m → Suite.SessionInit lib' maxBuffer impls' secret s' m →
        Opens m lib lib' maxBuffer s s' (Common.init true compat t splay) (Common.init false compat t' splay') ∧
        Opens m lib' lib maxBuffer s' s (Common.init false compat t' splay') (Common.init true compat t splay) := by
  obtain ⟨hmm, hlen, _⟩ := C111_method hb hb' ps ps' name _ _ hm hm'
  obtain ⟨h1, h2⟩ := C31_shared L p
  rw [hres] at h1 h2
  obtain ⟨k1, k2⟩ := C31_session L p hres name (by omega) (Suite.keyLength m)
  refine ⟨hmm.symm, h1, h2, _, k1, k2, ?_, ?_, ?_⟩
  · refine (Suite.C108_session hl m impls hi _ maxBuffer (by omega) h16).2 ?_
    rw [sessionKey_length]
    omega
  · refine (Suite.C108_session hl' m impls' hi' _ maxBuffer (by omega) h16).2 ?_
    rw [sessionKey_length]
    omega
  · intro s s' hs hs'
    constructor
    · intro b st g1 g2 g3 g4 g5 g6
      obtain ⟨out, e1, e2, e3⟩ := Suite.C108_interop hl hl' hpoly m impls impls' _ maxBuffer hmax h16 s s' hs hs' (Common.init true compat t splay)
        (Common.init false compat t' splay') rfl b st g1 g2 g3 g4 g5 g6
      refine ⟨out, e1, e2, ?_⟩
      intro b' st' eh now r1 r2 r3 r4 r5 hv
      obtain ⟨d, d1, d2⟩ := e3 b' st' eh now r1 r2 r3 r4 r5
      obtain ⟨r, hr⟩ := fresh_receive false compat compat t' t splay' splay now hv
      rw [show (!false) = true from rfl] at hr
      rw [hr] at d2
      exact ⟨d, r, d1, d2⟩
    · intro b st g1 g2 g3 g4 g5 g6
      obtain ⟨out, e1, e2, e3⟩ := Suite.C108_interop hl' hl hpoly.symm m impls' impls _ maxBuffer hmax h16 s' s hs' hs (Common.init false compat t' splay')
        (Common.init true compat t splay) rfl b st g1 g2 g3 g4 g5 g6
      refine ⟨out, e1, e2, ?_⟩
      intro b' st' eh now r1 r2 r3 r4 r5 hv
      obtain ⟨d, d1, d2⟩ := e3 b' st' eh now r1 r2 r3 r4 r5
      obtain ⟨r, hr⟩ := fresh_receive true compat compat t t' splay splay' now hv
      rw [show (!true) = false from rfl] at hr
      rw [hr] at d2
      exact ⟨d, r, d1, d2⟩

/-- "salsa2012+umac" in a build with all ciphers, and in one without AES and GMAC -/
example : createByName full allProviders [115, 97, 108, 115, 97, 50, 48, 49, 50, 43, 117, 109, 97, 99] = .accept (methodOf (.genericUmac .salsa2012)) ∧
    createByName ⟨allCiphers.drop 1, false, true⟩ [.genericUmac, .null] [115, 97, 108, 115, 97, 50, 48, 49, 50, 43, 117, 109, 97, 99]
      = .accept (methodOf (.genericUmac .salsa2012)) ∧ Build full := by
  refine ⟨by decide, by decide, ?_⟩
  intro c hc
  simp only [full, allCiphers, List.mem_cons, List.not_mem_nil, or_false] at hc
  rcases hc with rfl | rfl | rfl | rfl
  · exact ⟨.aes128ctr, by decide⟩
  · exact ⟨.null, by decide⟩
  · exact ⟨.salsa20, by decide⟩
  · exact ⟨.salsa2012, by decide⟩

end Fastd.EndToEnd
