import Verif.Daemon.Real
import Verif.Props.Connect
import Verif.Props.Deliver
import Verif.Props.EndToEnd
import Verif.Props.Timers

/-!
# C117: the tunnel

Two daemons with their key exchange, key derivation, methods and buffers, from the first handshake to payload on the other side: the assumptions about
cryptography under which daemons connect (C83) and payload is delivered (C84) are met.
-/

namespace Fastd.Whole

open Fastd.Daemon Fastd.Daemon.Real Fastd.Connect Fastd.Protocol.Fhmqvc Fastd.Method Fastd.EndToEnd
local notation "Bytes" => Fastd.Spec.Bytes
open Fastd.Spec.Fhmqvc (le)
open Fastd.Config.MethodNames (createByName Provider)
open Fastd.Buffer (alignto alignto_spec data_length)

/-! ### Statement -/

/-- The providers of the methods -/
def prov : Spec.Suite.Meth → Path.Prov
  | .cipherTest _ => .cipherTest
  | .genericGmac _ => .genericGmac
  | .genericUmac _ => .genericUmac
  | .genericPoly1305 _ => .poly1305
  | .composedGmac _ _ => .composedGmac
  | .composedUmac _ _ => .composedUmac

/-- What a daemon is started with: a secret key, random bytes for the handshake keys, ciphers and methods that were built in, libraries. `c` is the block
cipher AES. -/
structure Start where
  secret : Bytes
  random : Nat → Bytes
  build : Config.MethodNames.Env
  providers : List Provider

/-- The daemon was started with these and the settings of `base`. -/
structure Started {G : Type} (E : Ecc G) (c : Spec.Suite.BlockCipher) (base : Env) (S : Start) (N : Node) : Prop where
  /-- the keys; the public key is not the neutral element -/
  own : protocolInit E S.secret = some N.own
  valid : (readKey E N.own.pub).isSome = true
  random : ∀ n, (S.random n).length = 32
  pair : ∀ n, newHandshakeKey E (S.random n) = some (N.pair n)
  /-- the methods of all peer groups were created -/
  build : Build S.build
  created : ∀ x ∈ N.meths, createByName S.build S.providers x.1 = .accept (methodOf x.2)
  listed : ∀ g, ∀ name ∈ base.groupMethods g, ∃ m, (name, m) ∈ N.meths
  /-- libraries do what they should, and the implementations used support their ciphers -/
  lib : Suite.LibOk N.lib c
  impls : ∀ k, (N.impls.cipher k).supports k = true
  /-- the sizes of buffers are those for the methods -/
  sizes : N.sizes.methods = N.meths.map fun x => prov x.2
  payload : N.sizes.payload ≤ 65600

/-- The settings of two daemons match: `pB` is the peer section for `b` at `a`, `pA` the one for `a` at `b`. -/
structure Match (a b : Env) (N N' : Node) (pB pA : Peer) : Prop where
  keyB : pB.key = N'.own.pub
  keyA : pA.key = N.own.pub
  protocol : a.protocolName = b.protocolName
  mode : a.mode = .tun ↔ b.mode = .tun
  mtu : @Peer.getMtu a pB = @Peer.getMtu b pA
  mtuLt : @Peer.getMtu a pB < 65536
  common : ∃ n ∈ b.groupMethods pA.group, n ∈ a.groupMethods pB.group
  poly : N'.lib.poly1305 = N.lib.poly1305

/-! ### Names -/

theorem cipherName_ok (k : Spec.Suite.Cipher) : cipherName k ≠ [] ∧ (0 : UInt8) ∉ cipherName k := by cases k <;> decide

theorem not_mem_left {p q : Bytes} {k : Spec.Suite.Cipher} (h : p ++ q = cipherName k) : (0 : UInt8) ∉ p := fun h0 =>
  (cipherName_ok k).2 (h ▸ List.mem_append_left _ h0)

open Fastd.Config.MethodNames in
/-- Names of methods are not empty and contain no NUL. -/
theorem name_ok {e : Config.MethodNames.Env} (h : Build e) {name : Config.Name} {m : Config.MethodNames.Meth} (hd : Denotes e name m) :
    name ≠ [] ∧ (0 : UInt8) ∉ name := by
  have z : (0 : UInt8) ∉ sCipherTest ∧ (0 : UInt8) ∉ sDashGmac ∧ (0 : UInt8) ∉ sPlusGmac ∧ (0 : UInt8) ∉ sPlusUmac ∧ (0 : UInt8) ∉ sGcm ∧
    (0 : UInt8) ∉ sPoly1305 ∧ sCipherTest ≠ [] ∧ sDashGmac ≠ [] ∧ sPlusGmac ≠ [] ∧ sPlusUmac ≠ [] ∧ sGcm ≠ [] ∧ sPoly1305 ≠ [] := by decide
  obtain ⟨z1, z2, z3, z4, z5, z6, n1, n2, n3, n4, n5, n6⟩ := z
  cases hd with
  | cipherTest h1 =>
    obtain ⟨h2, k, rfl⟩ := build_iv h h1
    exact ⟨by simp [n1], by simp only [List.mem_append, not_or]; exact ⟨(cipherName_ok k).2, z1⟩⟩
  | @composedGmacCtr c p hg h1 h2 =>
    obtain ⟨h3, k, rfl⟩ := build_first h h1
    obtain ⟨h4, k', hk'⟩ := build_nonced h h2
    exact ⟨by simp [n2], by simp only [List.mem_append, List.mem_cons, List.not_mem_nil, not_or]; exact ⟨by simp [(cipherName_ok k).2, not_mem_left hk', z2], by simp [not_mem_left hk', z2]⟩⟩
  | composedGmac hg h1 h2 hn =>
    obtain ⟨h3, k, rfl⟩ := build_first h h1
    obtain ⟨h4, k', rfl⟩ := build_nonced h h2
    exact ⟨by simp [n3], by simp [(cipherName_ok k).2, (cipherName_ok k').2, z3]⟩
  | composedUmac hg h1 h2 =>
    obtain ⟨h3, k, rfl⟩ := build_first h h1
    obtain ⟨h4, k', rfl⟩ := build_nonced h h2
    exact ⟨by simp [n4], by simp [(cipherName_ok k).2, (cipherName_ok k').2, z4]⟩
  | @genericGcm p hg h1 =>
    obtain ⟨h4, k', hk'⟩ := build_nonced h h1
    exact ⟨by simp [n5], by simp [not_mem_left hk', z5]⟩
  | genericGmac hg h1 hn =>
    obtain ⟨h4, k', rfl⟩ := build_nonced h h1
    exact ⟨by simp [n3], by simp [(cipherName_ok k').2, z3]⟩
  | genericPoly1305 h1 =>
    obtain ⟨h4, k', rfl⟩ := build_nonced h h1
    exact ⟨by simp [n6], by simp [(cipherName_ok k').2, z6]⟩
  | genericUmac hg h1 =>
    obtain ⟨h4, k', rfl⟩ := build_nonced h h1
    exact ⟨by simp [n4], by simp [(cipherName_ok k').2, z4]⟩
  | null => decide
  | nullL2tp => decide

/-! ### Sizes -/

theorem foldl_max_le (l : List Nat) (a : Nat) : a ≤ l.foldl max a ∧ ∀ x ∈ l, x ≤ l.foldl max a := by
  induction l generalizing a with
  | nil => simp
  | cons x xs ih =>
    obtain ⟨h1, h2⟩ := ih (max a x)
    refine ⟨by simp only [List.foldl_cons]; omega, ?_⟩
    intro y hy
    simp only [List.foldl_cons]
    rcases List.mem_cons.1 hy with rfl | hy
    · omega
    · exact h2 y hy

theorem le_maxOf {l : List Nat} {x : Nat} (h : x ∈ l) : x ≤ Path.maxOf l := (foldl_max_le l 0).2 x h

/-- **C117, sizes.** Buffers are large enough for every payload up to the maximum and its packet, and there is enough space before payload. -/
theorem C117_sizes {s : Path.Cfg} {m : Spec.Suite.Meth} (h : prov m ∈ s.methods) {len pkt : Nat} (hl : len ≤ s.payload)
    (hp : pkt ≤ len + (prov m).overhead) :
    alignto (Suite.encryptSize len m) 16 ≤ s.maxBuffer ∧ alignto (Suite.decryptSize s.enc pkt m) 16 ≤ s.maxBuffer ∧
      Suite.encryptHeadroom m ≤ s.enc ∧ s.enc % 16 = 0 := by
  have h1 : (prov m).enc ≤ _ := le_maxOf (List.mem_map_of_mem (f := Path.Prov.enc) h)
  have h2 : (prov m).dec ≤ _ := le_maxOf (List.mem_map_of_mem (f := Path.Prov.dec) h)
  have h3 : (prov m).overhead ≤ s.overhead := le_maxOf (List.mem_map_of_mem (f := Path.Prov.overhead) h)
  have e1 := alignto_spec (Path.maxOf (s.methods.map Path.Prov.enc))
  have e2 := alignto_spec (Path.maxOf (s.methods.map Path.Prov.dec))
  have e3 := alignto_spec (max (s.headroom + s.payload) 1232)
  have e4 := alignto_spec (Suite.encryptSize len m)
  have e5 := alignto_spec (Suite.decryptSize s.enc pkt m)
  change _ ≤ s.enc ∧ s.enc < _ ∧ s.enc % 16 = 0 at e1
  change _ ≤ s.maxBuffer ∧ s.maxBuffer < _ ∧ s.maxBuffer % 16 = 0 at e3
  have e6 : s.headroom = max (s.enc + 16) (s.dec + s.overhead) := rfl
  have e7 : s.dec = alignto (Path.maxOf (s.methods.map Path.Prov.dec)) 16 + 8 := rfl
  rw [e6, e7] at e3
  cases m <;> simp only [prov, Path.Prov.enc, Path.Prov.dec, Path.Prov.overhead, Suite.encryptSize, Suite.decryptSize, Suite.encryptHeadroom] at * <;> omega

/-! ### Buffers -/

theorem bufOf_wf (off : Nat) (data : Bytes) : (bufOf off data).WF := by
  have := alignto_spec (off + data.length)
  simp [Buffer.Buf.WF, bufOf]

theorem bufOf_data (off : Nat) (data : Bytes) : (bufOf off data).data = data := by
  simp [Buffer.Buf.data, bufOf]

theorem bufOf_base (off : Nat) (data : Bytes) : (bufOf off data).base.length % 16 = 0 := by
  have := alignto_spec (off + data.length)
  have e : (bufOf off data).base.length = alignto (off + data.length) 16 := by simp [bufOf]; omega
  rw [e]; omega

theorem bufOf_received (pkt : Bytes) : Received (bufOf 8 pkt) := by
  refine ⟨bufOf_wf _ _, bufOf_base _ _, rfl, ?_⟩
  intro i h1 h2
  change 8 + pkt.length ≤ i at h1
  change i < alignto (8 + pkt.length) 16 at h2
  show (_ ++ List.replicate _ (0 : UInt8))[i]? = _
  rw [List.getElem?_append_right (by simp; omega), List.getElem?_replicate, if_pos (by simp; omega)]

theorem storage_ok (n : Nat) : Storage (storage n) n := by
  have := alignto_spec n
  unfold Storage storage
  rw [List.length_replicate]
  omega

theorem enc_length {lib : Suite.Lib} {c : Spec.Suite.BlockCipher} (hl : Suite.LibOk lib c) (m : Spec.Suite.Meth) (secret : Bytes) (n : Nonce) (p : Bytes) :
    ((m.aead c lib.poly1305 secret).enc n p).length + 8 ≤ p.length + (prov m).overhead := by
  cases m <;> simp [Spec.Suite.Meth.aead, Spec.cipherTest, Spec.generic, Spec.composed, Spec.poly1305, Spec.xor, prov, Path.Prov.overhead, hl.poly1305] <;> omega

theorem isData_packet (a : Spec.Aead) (s : Common) (p : Bytes) : IsData (Spec.packet a s p) := by
  refine ⟨packetType s.compat, rfl, ?_⟩
  unfold packetType
  cases s.compat <;> decide

section

variable [Env]

theorem maySend_of {x : Ctx} (r : Reach anyEvent x) {q : Peer} (hq : q ∈ x.peers) (he : q.state = .established) {sock : Sock} (hs : q.sock = some sock) :
    MaySend x sock q.localAddr q.addr q := by
  have hI : Inv False nobody nobody nobody x := Reach.inv (fun s => s.elim) r
  exact ⟨hq, he, addrEq_refl _, addrEq_refl _, fun n hn => (hI.socks.own q hq n).1 (by rw [hs, hn])⟩

theorem MaySend.possible {x : Ctx} {sock : Sock} {loc rem : Addr} {p : Peer} (h : MaySend x sock loc rem p) (hr : rem.isSet = true) {d : Bytes} (hd : IsData d) :
    (Daemon.Event.recv sock loc rem d).possible x := by
  refine ⟨?_, hr, ?_⟩
  · obtain ⟨t, ht, _⟩ := hd
    rintro rfl
    cases ht
  · cases sock with
    | bound => trivial
    | dyn n => exact ⟨_, h.sock n rfl⟩

theorem now_eq {e : Daemon.Event} (hne : ∀ d, e ≠ .tick d) {x x' : Ctx} (h : handle e x = .ok ((), x')) : x'.now = x.now :=
  (ks_ok (ks_handle e hne) h).1

end

/-! ### The assumptions of C83 are met -/

/-- The result of the key exchange is not the neutral element, whichever handshake keys are used. -/
def NotNeutral {G : Type} [AddCommGroup G] (E : Ecc G) (P : G) (S S' : Start) : Prop :=
  ∀ x y, result E P (le S.secret) (le S'.secret) (le (E.sanitize (S.random x))) (le (E.sanitize (S'.random y))) ≠ none

section

variable {G : Type} [AddCommGroup G] {E : Ecc G} {P : G} {c : Spec.Suite.BlockCipher} {base base' : Env} {S S' : Start} {N N' : Node} {pB pA : Peer}

theorem find_mem {l : List (Bytes × Spec.Suite.Meth)} {n : Bytes} {i : Nat} (h : l.findIdx? (·.1 = n) = some i) :
    ∃ m, l[i]? = some (n, m) ∧ (n, m) ∈ l := by
  obtain ⟨hi, h1, _⟩ := List.findIdx?_eq_some_iff_getElem.1 h
  simp only [decide_eq_true_eq] at h1
  refine ⟨l[i].2, ?_, ?_⟩
  · rw [List.getElem?_eq_getElem hi, ← h1]
  · rw [← h1]; exact List.getElem_mem hi

theorem Started.denotes (h : Started E c base S N) {n : Bytes} {m : Spec.Suite.Meth} (hm : (n, m) ∈ N.meths) :
    Config.MethodNames.Denotes S.build n (methodOf m) :=
  ((Config.MethodNames.C64_accept S.build (build_noPlus h.build) S.providers n _).1 (h.created _ hm)).2

theorem methodOf_inj {m m' : Spec.Suite.Meth} (h : methodOf m = methodOf m') : m = m' := by
  have hc : ∀ k k', cipherName k = cipherName k' → k = k' := by intro k k'; cases k <;> cases k' <;> decide
  cases m <;> cases m' <;> simp only [methodOf, reduceCtorEq, Config.MethodNames.Meth.cipherTest.injEq, Config.MethodNames.Meth.genericGmac.injEq,
    Config.MethodNames.Meth.genericUmac.injEq, Config.MethodNames.Meth.genericPoly1305.injEq, Config.MethodNames.Meth.composedGmac.injEq,
    Config.MethodNames.Meth.composedUmac.injEq] at h
  all_goals first | rw [hc _ _ h] | rw [hc _ _ h.1, hc _ _ h.2]

theorem same_method (h : Started E c base S N) (h' : Started E c base' S' N') {n : Bytes} {m m' : Spec.Suite.Meth} (hm : (n, m) ∈ N.meths)
    (hm' : (n, m') ∈ N'.meths) : m = m' :=
  methodOf_inj (C111_method h.build h'.build _ _ n _ _ (h.created _ hm) (h'.created _ hm')).1

theorem Started.maxBuffer (h : Started E c base S N) : 16 ≤ N.sizes.maxBuffer ∧ N.sizes.maxBuffer ≤ 2 ^ 24 := by
  have hx : ∀ f : Path.Prov → Nat, (∀ p, f p ≤ 100) → Path.maxOf (N.sizes.methods.map f) ≤ 100 := by
    intro f hf
    have : ∀ (l : List Path.Prov) (a : Nat), a ≤ 100 → (l.map f).foldl max a ≤ 100 := by
      intro l
      induction l with
      | nil => intro a ha; exact ha
      | cons x xs ih => intro a ha; exact ih _ (max_le ha (hf x))
    exact this _ _ (by omega)
  have h1 := hx Path.Prov.enc (by intro p; cases p <;> decide)
  have h2 := hx Path.Prov.dec (by intro p; cases p <;> decide)
  have h3 : N.sizes.overhead ≤ 100 := hx Path.Prov.overhead (by intro p; cases p <;> decide)
  have e1 := alignto_spec (Path.maxOf (N.sizes.methods.map Path.Prov.enc))
  have e2 := alignto_spec (Path.maxOf (N.sizes.methods.map Path.Prov.dec))
  have e3 := alignto_spec (max (N.sizes.headroom + N.sizes.payload) 1232)
  change _ ≤ N.sizes.enc ∧ N.sizes.enc < _ ∧ _ at e1
  change _ ≤ N.sizes.maxBuffer ∧ N.sizes.maxBuffer < _ ∧ _ at e3
  have e6 : N.sizes.headroom = max (N.sizes.enc + 16) (N.sizes.dec + N.sizes.overhead) := rfl
  have e7 : N.sizes.dec = alignto (Path.maxOf (N.sizes.methods.map Path.Prov.dec)) 16 + 8 := rfl
  have := h.payload
  rw [e6, e7] at e3
  omega

def parties (h : Started E c base S N) (h' : Started E c base' S' N') (x y : Nat) (kA kB : PeerKey G) (hA : readKey E N.own.pub = some kA)
    (hB : readKey E N'.own.pub = some kB) : Parties E where
  a := S.secret
  b := S'.secret
  x := S.random x
  y := S'.random y
  A := N.own
  B := N'.own
  X := N.pair x
  Y := N'.pair y
  keyA := kA
  keyB := kB
  ha := h.own
  hb := h'.own
  hx := ⟨h.random x, h.pair x⟩
  hy := ⟨h'.random y, h'.pair y⟩
  hA := hA
  hB := hB

theorem shared_eq (L : E.Lawful P) (h : Started E c base S N) (h' : Started E c base' S' N') (x y : Nat) :
    Real.shared E N true x N'.own.pub (N'.pair y).pub =
      result E P (le S.secret) (le S'.secret) (le (E.sanitize (S.random x))) (le (E.sanitize (S'.random y))) ∧
    Real.shared E N' false y N.own.pub (N.pair x).pub =
      result E P (le S.secret) (le S'.secret) (le (E.sanitize (S.random x))) (le (E.sanitize (S'.random y))) := by
  obtain ⟨kA, hA⟩ := Option.isSome_iff_exists.1 h.valid
  obtain ⟨kB, hB⟩ := Option.isSome_iff_exists.1 h'.valid
  obtain ⟨h1, h2⟩ := C31_shared L (parties h h' x y kA kB hA hB)
  constructor
  · unfold Real.shared
    rw [hB]
    exact congrArg Option.join h1
  · unfold Real.shared
    rw [hA]
    exact congrArg Option.join h2

theorem derived (L : E.Lawful P) (h : Started E c base S N) (h' : Started E c base' S' N') {x y : Nat} {sigma sh : Bytes}
    (hr : result E P (le S.secret) (le S'.secret) (le (E.sanitize (S.random x))) (le (E.sanitize (S'.random y))) = some (sigma, sh))
    {n : Bytes} (m : Spec.Suite.Meth) (hn : n.length ≤ 60) :
    ∃ key, Protocol.Fhmqvc.deriveKey (blockCount (Suite.keyLength m) 32) sh n (N.pair x).pub (N'.pair y).pub N.own.pub N'.own.pub sigma = some key ∧
      Suite.keyLength m ≤ key.length := by
  obtain ⟨kA, hA⟩ := Option.isSome_iff_exists.1 h.valid
  obtain ⟨kB, hB⟩ := Option.isSome_iff_exists.1 h'.valid
  have h1 := (C31_session L (parties h h' x y kA kB hA hB) hr n (by omega) (Suite.keyLength m)).1
  unfold sessionKeyInitiator at h1
  rw [show (parties h h' x y kA kB hA hB).keyB.key = N'.own.pub from readKey_key hB] at h1
  refine ⟨_, h1, ?_⟩
  rw [sessionKey_length]
  omega

theorem opens (L : E.Lawful P) (h : Started E c base S N) (h' : Started E c base' S' N') {Q : Start} {M : Node} {base'' : Env}
    (hQ : Started E c base'' Q M) {x y : Nat} {sigma sh : Bytes}
    (hr : result E P (le S.secret) (le S'.secret) (le (E.sanitize (S.random x))) (le (E.sanitize (S'.random y))) = some (sigma, sh))
    {i : Nat} {n : Bytes} {m : Spec.Suite.Meth} (hi : M.meths[i]? = some (n, m)) (hm : (n, m) ∈ M.meths) (init : Bool) (r : Nat) (now : Time) :
    (Real.sessInit M M.sizes.maxBuffer i (Real.deriveKey M i (N.pair x).pub (N'.pair y).pub N.own.pub N'.own.pub sigma sh) init false r now).isSome = true := by
  obtain ⟨key, hk, hl⟩ := derived L h h' hr m (denotes_build hQ.build (hQ.denotes hm)).2.1
  obtain ⟨m1, m2⟩ := hQ.maxBuffer
  have := (Suite.C108_session hQ.lib m M.impls hQ.impls key M.sizes.maxBuffer (by omega) m1).2 hl
  have hd : Real.deriveKey M i (N.pair x).pub (N'.pair y).pub N.own.pub N'.own.pub sigma sh = key := by
    unfold Real.deriveKey
    simp only [hi, hk, Option.getD_some]
  rw [hd]
  unfold Real.sessInit
  simp only [hi]
  rw [dif_pos this]
  rfl

/-- **C117, assumptions.** Two daemons with matching settings, whatever methods and implementations were built in, are compatible in the sense of C83: they
mean the same by names of methods, compute the same secrets, and can set up sessions with them. -/
theorem C117_compatible (L : E.Lawful P) (h : Started E c base S N) (h' : Started E c base' S' N') (hn : NotNeutral E P S S')
    (hm : Match (env E N base) (env E N' base') N N' pB pA) : Compatible (env E N base) (env E N' base') pB pA where
  keyB := hm.keyB
  keyA := hm.keyA
  protocol := hm.protocol
  mode := hm.mode
  mtu := hm.mtu
  mtuLt := hm.mtuLt
  common := hm.common
  names n hn := by
    obtain ⟨m, h1⟩ := h'.listed _ n hn
    exact name_ok h'.build (h'.denotes h1)
  named n _ i hi := by
    obtain ⟨m, h1, _⟩ := find_mem hi
    show (N.meths[i]?.map (·.1)).getD [] = n
    rw [h1]
    rfl
  hmac := rfl
  hmacLen k d := Fastd.Crypto.hmac_length k d
  derive n i j hi hj := by
    obtain ⟨m, h1, h2⟩ := find_mem hi
    obtain ⟨m', h3, h4⟩ := find_mem hj
    have := same_method h h' h2 h4
    subst this
    show Real.deriveKey N i = Real.deriveKey N' j
    funext A B X Y sigma salt
    unfold Real.deriveKey
    rw [h1, h3]
  agree x y := by
    obtain ⟨h1, h2⟩ := shared_eq L h h' x y
    obtain ⟨r, hr⟩ := Option.ne_none_iff_exists'.1 (hn x y)
    exact ⟨r, h1.trans hr, h2.trans hr⟩
  opensA n i hi x y sigma sh hs r now := by
    obtain ⟨m, h1, h2⟩ := find_mem hi
    exact opens L h h' h ((shared_eq L h h' x y).1.symm.trans hs) h1 h2 true r now
  opensB n i hi x y sigma sh hs r now := by
    obtain ⟨m, h1, h2⟩ := find_mem hi
    exact opens L h h' h' ((shared_eq L h h' x y).2.symm.trans hs) h1 h2 false r now

/-! ### Packets -/

theorem sess_init {i : Nat} {n : Bytes} {m : Spec.Suite.Meth} (hi : N.meths[i]? = some (n, m)) {maxBuffer : Nat} {key : Bytes} {init : Bool} {r : Nat}
    {now : Time} {o : Sess} (h : Real.sessInit N maxBuffer i key init false r now = some o) :
    Suite.SessionInit N.lib maxBuffer N.impls key o.1 m ∧ o.2 = Common.init init false now (r % KEY_REFRESH_SPLAY) := by
  unfold Real.sessInit at h
  simp only [hi] at h
  split at h
  · rename_i hs
    cases h
    exact ⟨hs.choose_spec, rfl⟩
  · cases h

theorem prov_mem (h : Started E c base S N) {i : Nat} {n : Bytes} {m : Spec.Suite.Meth} (hi : N.meths[i]? = some (n, m)) : prov m ∈ N.sizes.methods := by
  rw [h.sizes]
  exact List.mem_map.2 ⟨(n, m), List.mem_of_getElem? hi, rfl⟩

theorem real_encrypt (h : Started E c base S N) {i : Nat} {n : Bytes} {m : Spec.Suite.Meth} (hi : N.meths[i]? = some (n, m)) {key : Bytes} {s : Suite.Sess}
    (hs : Suite.SessionInit N.lib N.sizes.maxBuffer N.impls key s m) (snd : Common) {data : Bytes} (hd : data.length ≤ N.sizes.payload) :
    Real.encrypt N N.sizes.maxBuffer i (s, snd) data =
      some (Spec.packet (m.aead c N.lib.poly1305 key) snd data, s, { snd with sendNonce := incrNonce snd.sendNonce }) := by
  obtain ⟨h1, _, h3, h4⟩ := C117_sizes (prov_mem h hi) hd (Nat.zero_le _)
  obtain ⟨m1, m2⟩ := h.maxBuffer
  obtain ⟨out, e1, _, e3⟩ := Suite.C108_encrypt h.lib m N.impls key _ m2 s hs m1 snd (bufOf N.sizes.enc data) (storage N.sizes.maxBuffer) (bufOf_wf _ _)
    (bufOf_base _ _) h4 h3 (storage_ok _) h1
  unfold Real.encrypt
  simp only [hi, e1]
  rw [e3, bufOf_data]

theorem real_decrypt (h : Started E c base S N) {i : Nat} {n : Bytes} {m : Spec.Suite.Meth} (hi : N.meths[i]? = some (n, m)) {key : Bytes} {s : Suite.Sess}
    (hs : Suite.SessionInit N.lib N.sizes.maxBuffer N.impls key s m) (snd rcv : Common) (hc : rcv.compat = snd.compat) {data : Bytes}
    (hd : data.length ≤ N.sizes.payload) {now : Time} {r : Common} (hr : receive rcv now snd.sendNonce = (.inOrder, r)) :
    Real.decrypt N N.sizes.maxBuffer i (s, rcv) (Spec.packet (m.aead c N.lib.poly1305 key) snd data) now = some (data, false, s, r) := by
  have hl : (Spec.packet (m.aead c N.lib.poly1305 key) snd data).length ≤ data.length + (prov m).overhead := by
    have := enc_length h.lib m key snd.sendNonce data
    unfold Spec.packet
    simp only [List.length_append, List.length_cons, List.length_nil, Vector.length_toList]
    omega
  obtain ⟨_, h2, _, h4⟩ := C117_sizes (prov_mem h hi) hd hl
  obtain ⟨m1, m2⟩ := h.maxBuffer
  obtain ⟨d, e1, e2, _⟩ := Suite.C108_decrypt h.lib m N.impls key _ m2 s hs m1 N.sizes.enc rcv now
    (bufOf 8 (Spec.packet (m.aead c N.lib.poly1305 key) snd data)) (storage N.sizes.maxBuffer) (bufOf_received _) (storage_ok _) h4 h2
  rw [bufOf_data, C62_delivery _ (Suite.aead_sound h.lib m key) snd rcv now data hc, hr] at e2
  unfold Real.decrypt
  simp only [hi, e1]
  cases d with
  | null => cases e2
  | out b' s' r' =>
    simp only [Dec.view, Spec.Recv.payload.injEq] at e2
    obtain ⟨rfl, rfl, rfl⟩ := e2
    rfl

theorem parity1 : ¬ ((lastByteNonce 3)[0] &&& (1 : UInt8) ≠ (lastByteNonce 1)[0] &&& (1 : UInt8)) := by decide
theorem parity2 : ¬ ((incrNonce (lastByteNonce 2))[0] &&& (1 : UInt8) ≠ (lastByteNonce 0)[0] &&& (1 : UInt8)) := by decide
theorem first_ne : (lastByteNonce 2)[0] ≠ 0xff ∧ (lastByteNonce 3)[0] ≠ 0xff ∧ (incrNonce (lastByteNonce 2))[0] ≠ 0xff := by decide

/-- The counters when the connection is up: the responder has sent an empty packet. -/
def counters : Bool → Time → Time → Common
  | true, t, splay => Common.init true false t splay
  | false, t, splay => { Common.init false false t splay with sendNonce := incrNonce (Common.init false false t splay).sendNonce }

theorem counters_valid (init : Bool) {t now splay : Time} (h : now < t + KEY_VALID) : (counters init t splay).isValid now = true := by
  have ht : (!timedOut (t + KEY_VALID) now) = true := by unfold timedOut; simp; omega
  cases init
  · exact (if_neg fun h => first_ne.2.2 h.1).trans ht
  · exact (if_neg fun h => first_ne.2.1 h.1).trans ht

/-- Both ends accept the packets the other one sends next. -/
theorem next_receive (init : Bool) (t t' splay splay' now : Time) (h : now < t + KEY_VALID) :
    ∃ r, receive (counters init t splay) now (counters (!init) t' splay').sendNonce = (.inOrder, r) := by
  unfold receive
  rw [if_pos (counters_valid init h)]
  cases init
  · have : isNonceValid (counters false t splay) now (counters (!false) t' splay').sendNonce = some (-1) := by
      have ha : nonceAge (lastByteNonce 1) (lastByteNonce 3) = -1 := by decide
      refine (if_neg parity1).trans ?_
      simp only [counters, Bool.not_false, Common.init, if_true, Bool.false_eq_true, if_false, ha]
      rfl
    rw [this]
    exact ⟨_, rfl⟩
  · have : isNonceValid (counters true t splay) now (counters (!true) t' splay').sendNonce = some (-2) := by
      have ha : nonceAge (lastByteNonce 0) (incrNonce (lastByteNonce 2)) = -2 := by decide
      refine (if_neg parity2).trans ?_
      simp only [counters, Bool.not_true, Common.init, if_true, Bool.false_eq_true, if_false, ha]
      rfl
    rw [this]
    exact ⟨_, rfl⟩

theorem up_state (h : Started E c base S N) {x : @Ctx (env E N base)} {id i : Nat} {n : Bytes} {m : Spec.Suite.Meth} (hi : N.meths[i]? = some (n, m))
    {sock : Sock} {loc rem : Addr} {key : Bytes} {init : Bool} {t : Time} (hu : Up (env E N base) x id sock loc rem i key init t) :
    ∃ q ∈ @Ctx.peers (env E N base) x, q.id = id ∧ q.state = .established ∧ q.sock = some sock ∧ q.localAddr = loc ∧ q.addr = rem ∧
      q.sess.method = some i ∧ ∃ k s splay, q.sess.mstate = some k ∧ @Ctx.objs (env E N base) x k = some (s, counters init t splay) ∧
        Suite.SessionInit N.lib N.sizes.maxBuffer N.impls key s m := by
  obtain ⟨q, h1, h2, h3, h4, h5, h6, h7, k, r, o, h8, h9, h10⟩ := hu
  obtain ⟨s1, s2⟩ := sess_init hi h9
  obtain ⟨s, cm⟩ := o
  change cm = _ at s2
  subst s2
  refine ⟨q, h1, h2, h3, h4, h5, h6, h7, k, s, r % KEY_REFRESH_SPLAY, h8, ?_, s1⟩
  cases init
  · rw [if_neg (by simp)] at h10
    have := real_encrypt h hi s1 (Common.init false false t (r % KEY_REFRESH_SPLAY)) (data := []) (Nat.zero_le _)
    exact h10 _ _ this
  · rw [if_pos rfl] at h10
    exact h10

/-- **C117, packets.** When the connection between two daemons is up, `a` being the initiator or not, and no older session is in use, each packet read from
an interface at `a` that is meant for `b` and not larger than both ends have configured is sent to the address of `b`; if it arrives, it is written to the
interface for `a` at `b`, exactly once and unchanged. -/
theorem C117_across (h : Started E c base S N) (h' : Started E c base' S' N') (hpoly : N'.lib.poly1305 = N.lib.poly1305) {n : Bytes} {i j : Nat}
    (hi : (env E N base).methodByName n = some i) (hj : (env E N' base').methodByName n = some j)
    {ca : @Ctx (env E N base)} (ra : @Reach (env E N base) (@anyEvent (env E N base)) ca)
    {cb : @Ctx (env E N' base')} (rb : @Reach (env E N' base') (@anyEvent (env E N' base')) cb)
    {idB idA : Nat} {sA sB : Sock} {lA rB lB rA : Addr} {key : Bytes} {init : Bool} {tA tB : Time}
    (ua : Up (env E N base) ca idB sA lA rB i key init tA) (ub : Up (env E N' base') cb idA sB lB rA j key (!init) tB)
    (va : nowOf (env E N base) ca < tA + KEY_VALID) (vb : nowOf (env E N' base') cb < tB + KEY_VALID)
    (oa : ∀ q ∈ @Ctx.peers (env E N base) ca, q.id = idB → ¬ @SessOk (env E N base) ca q.old)
    (ob : ∀ q ∈ @Ctx.peers (env E N' base') cb, q.id = idA → ¬ @SessOk (env E N' base') cb q.old) (hset : rA.isSet = true)
    {e : Daemon.Event} {data : Bytes} (hp : @Daemon.Event.possible (env E N base) ca e) (hm : @Meant (env E N base) ca idB data e)
    (la : data.length ≤ N.sizes.payload) (lb : data.length ≤ N'.sizes.payload)
    (hd : ∀ q ∈ @Ctx.peers (env E N' base') cb, q.id = idA → @Deliverable (env E N' base') q data) :
    ∀ ca', @handle (env E N base) e ca = .ok ((), ca') →
      ∃ l pkt, logOf (env E N base) ca' = logOf (env E N base) ca ++ l ∧ .send sA lA rB (some idB) pkt ∈ l ∧
        ∀ cb', @handle (env E N' base') (.recv sB lB rA pkt) cb = .ok ((), cb') →
          ∃ l', logOf (env E N' base') cb' = logOf (env E N' base') cb ++ l' ∧ writes l' = [(idA, data)] := by
  intro ca' he
  obtain ⟨m, hi, hi1⟩ := find_mem hi
  obtain ⟨m', hj, hj1⟩ := find_mem hj
  obtain rfl := same_method h h' hi1 hj1
  obtain ⟨q, q1, rfl, q3, q4, rfl, rfl, q7, k, s, sp, q8, q9, q10⟩ := up_state h hi ua
  obtain ⟨q', p1, rfl, p3, p4, rfl, rfl, p7, k', s', sp', p8, p9, p10⟩ := up_state h' hj ub
  obtain ⟨l, hl⟩ := @step_log (env E N base) _ _ _ ra he
  have henc := real_encrypt h hi q10 (counters init tA sp) la
  obtain ⟨r, hr⟩ := next_receive (!init) tB tA sp' sp (nowOf (env E N' base') cb) vb
  rw [Bool.not_not] at hr
  have hdec := real_decrypt h' hj p10 (counters init tA sp) (counters (!init) tB sp') (by cases init <;> rfl) lb hr
  rw [hpoly] at hdec
  have hms := @maySend_of (env E N' base') _ rb _ p1 p3 _ p4
  have hsb : @SessOk (env E N' base') cb q'.sess := ⟨j, k', _, p7, p8, p9, counters_valid (!init) vb⟩
  have hdat : IsData (Spec.packet (m.aead c N.lib.poly1305 key) (counters init tA sp) data) := isData_packet _ _ _
  obtain ⟨sk, g1, g2, g3⟩ := C84_across (env E N base) (env E N' base') ra hp he hl q1 hm
    (k := k) (pkt := Spec.packet (m.aead c N.lib.poly1305 key) (counters init tA sp) data)
    ⟨⟨i, k, _, q7, q8, q9, counters_valid init va⟩, q.sess, i, _, _, .inr ⟨fun h => oa q q1 rfl h.2, rfl⟩, q7, q8, q9, henc⟩
    (cb' := cb) rb hms hsb
    ⟨hdat, .inr ⟨fun h => ob q' p1 rfl h.1, j, k', _, _, _, p7, p8, p9, hdec⟩⟩ (hd q' p1 rfl)
  clear g3
  rw [q4] at g1
  cases g1
  refine ⟨l, _, hl, g2, fun cb' he' => ?_⟩
  obtain ⟨_, _, _, g3⟩ := C84_across (env E N base) (env E N' base') ra hp he hl q1 hm
    (k := k) (pkt := Spec.packet (m.aead c N.lib.poly1305 key) (counters init tA sp) data)
    ⟨⟨i, k, _, q7, q8, q9, counters_valid init va⟩, q.sess, i, _, _, .inr ⟨fun h => oa q q1 rfl h.2, rfl⟩, q7, q8, q9, henc⟩
    (cb' := cb') rb hms hsb
    ⟨hdat, .inr ⟨fun h => ob q' p1 rfl h.1, j, k', _, _, _, p7, p8, p9, hdec⟩⟩ (hd q' p1 rfl)
  exact g3 (@MaySend.possible (env E N' base') _ _ _ _ _ hms hset _ hdat) he'

/-- Each packet read from an interface at `a` for `b` is sent there and, if it arrives, written to the interface for `a` at `b`, once and unchanged. -/
def Carries (a b : Env) (payload : Nat) (ca : @Ctx a) (cb : @Ctx b) (idB idA : Nat) (sA : Sock) (lA rB : Addr) (sB : Sock) (lB rA : Addr) : Prop :=
  (∀ q ∈ @Ctx.peers a ca, q.id = idB → ¬ @SessOk a ca q.old) → (∀ q ∈ @Ctx.peers b cb, q.id = idA → ¬ @SessOk b cb q.old) →
  ∀ e data, @Daemon.Event.possible a ca e → @Meant a ca idB data e → data.length ≤ payload →
    (∀ q ∈ @Ctx.peers b cb, q.id = idA → @Deliverable b q data) →
    ∀ ca', @handle a e ca = .ok ((), ca') →
      ∃ l pkt, logOf a ca' = logOf a ca ++ l ∧ .send sA lA rB (some idB) pkt ∈ l ∧
        ∀ cb', @handle b (.recv sB lB rA pkt) cb = .ok ((), cb') → ∃ l', logOf b cb' = logOf b cb ++ l' ∧ writes l' = [(idA, data)]

/-- **C117.** Two daemons with matching settings: a handshake that is due is sent, and if its packets arrive, the daemons are connected and carry packets
in both directions, with the method that is first in the list of `b` among the common ones. -/
theorem C117_tunnel (L : E.Lawful P) (h : Started E c base S N) (h' : Started E c base' S' N') (hn : NotNeutral E P S S')
    (ha : @Sane (env E N base)) (hb : @Sane (env E N' base')) (hm : Match (env E N base) (env E N' base') N N' pB pA)
    {ca : @Ctx (env E N base)} (ra : @Reach (env E N base) (@Harmless (env E N base)) ca) {k s : Nat} {lA rB : Addr}
    (hd : Due (env E N base) ca pB k rB s) (setB : rB.isSet = true)
    (lastA : pB.lastSerial < nextSerial (env E N base) ca) (ifA : HasIface (env E N base) pB)
    {cb : @Ctx (env E N' base')} (rb : @Reach (env E N' base') (@Harmless (env E N' base')) cb) {sB : Sock} {lB rA : Addr}
    (hB : @Hears (env E N' base') cb pA sB rA)
    (hresp : timedOut pA.lastRespTimeout (nowOf (env E N' base') cb) = true ∨ addrEq rA pA.lastRespAddr = false)
    (lastB : pA.lastSerial < nextSerial (env E N' base') cb) (ifB : HasIface (env E N' base') pA) :
    @Daemon.Event.possible (env E N base) ca (.task pB.id) ∧
    After (env E N base) (.task pB.id) ca fun ca1 => ∃ d1, .send (.bound s) pB.localAddr rB (some pB.id) d1 ∈ logOf (env E N base) ca1 ∧
    After (env E N' base') (.recv sB lB rA d1) cb fun cb1 => ∃ d2, .send sB lB rA (some pA.id) d2 ∈ logOf (env E N' base') cb1 ∧
    After (env E N base) (.recv (.bound s) lA rB d2) ca1 fun ca2 => ∃ d3, .send (.bound s) lA rB (some pB.id) d3 ∈ logOf (env E N base) ca2 ∧
    After (env E N' base') (.recv sB lB rA d3) cb1 fun cb3 =>
      (∃ n i j key tA tB, (base'.groupMethods pA.group).find? (· ∈ base.groupMethods pB.group) = some n ∧
        (env E N base).methodByName n = some i ∧ (env E N' base').methodByName n = some j ∧
        Up (env E N base) ca2 pB.id (.bound s) lA rB i key true tA ∧ Up (env E N' base') cb3 pA.id sB lB rA j key false tB) ∧
      Carries (env E N base) (env E N' base') (min N.sizes.payload N'.sizes.payload) ca2 cb3 pB.id pA.id (.bound s) lA rB sB lB rA ∧
      Carries (env E N' base') (env E N base) (min N.sizes.payload N'.sizes.payload) cb3 ca2 pA.id pB.id sB lB rA (.bound s) lA rB := by
  obtain ⟨hp, ca1, e0, d1, l1, cb1, e1, d2, l2, ca2, e2, d3, l3, cb3, e3, n, i, j, key, r2, r3, hi, hj, hf, ua, ub⟩ :=
    C83_start (env E N base) (env E N' base') ha hb (C117_compatible L h h' hn hm) ra (lA := lA) hd lastA ifA rb (lB := lB) hB hresp lastB ifB
  have tA : nowOf (env E N base) ca2 = nowOf (env E N base) ca := 
    (@now_eq (env E N base) _ (by simp) _ _ e2).trans (@now_eq (env E N base) _ (by simp) _ _ e0)
  have tB : nowOf (env E N' base') cb3 = nowOf (env E N' base') cb := 
    (@now_eq (env E N' base') _ (by simp) _ _ e3).trans (@now_eq (env E N' base') _ (by simp) _ _ e1)
  have hk : (0 : Time) < KEY_VALID := by decide
  have setA : rA.isSet = true := @Hears.set (env E N' base') _ _ _ _ hB
  refine ⟨hp, ca1, e0, d1, l1, cb1, e1, d2, l2, ca2, e2, d3, l3, cb3, e3, ⟨n, i, j, key, _, _, hf, hi, hj, ua, ub⟩, ?_, ?_⟩
  · intro oa ob e data pe me le de
    exact C117_across h h' hm.poly hi hj r2 r3 ua ub (by rw [tA]; omega) (by rw [tB]; omega) oa ob setA pe me
      (le.trans (min_le_left _ _)) (le.trans (min_le_right _ _)) de
  · intro ob oa e data pe me le de
    exact C117_across h' h hm.poly.symm hj hi r3 r2 ub ua (by rw [tB]; omega) (by rw [tA]; omega) ob oa setB pe me
      (le.trans (min_le_right _ _)) (le.trans (min_le_left _ _)) de

end

/-! ### Example -/

namespace Example

open Fastd.Protocol.Fhmqvc.Demo (toy toy_lawful)
open Fastd.Daemon.Demo (addrOf peer)

/-- "salsa2012+umac" -/
def nSalsa : Bytes := [115, 97, 108, 115, 97, 50, 48, 49, 50, 43, 117, 109, 97, 99]

/-- "aes128-gcm" -/
def nGcm : Bytes := [97, 101, 115, 49, 50, 56, 45, 103, 99, 109]

/-- "null+salsa2012+umac" -/
def nAuth : Bytes := [110, 117, 108, 108, 43] ++ nSalsa

/-- What the two daemons are started with -/
def start : Bool → Start
  | true => ⟨8 :: List.replicate 31 3, fun _ => List.replicate 32 7, full, Config.MethodNames.allProviders⟩
  | false => ⟨16 :: List.replicate 31 5, fun _ => List.replicate 32 0xab, full, Config.MethodNames.allProviders⟩

/-- The first one prefers AES and was built for 64 bits, the second one has no AES and 32 bits. -/
def meths : Bool → List (Bytes × Spec.Suite.Meth)
  | true => [(nGcm, .genericGmac .aes128ctr), (nSalsa, .genericUmac .salsa2012)]
  | false => [(nAuth, .composedUmac .null .salsa2012), (nSalsa, .genericUmac .salsa2012)]

/-- Some function in the place of AES -/
def aes : Spec.Suite.BlockCipher := fun _ _ _ => 0

def ownPair (w : Bool) : Pair := (protocolInit toy (start w).secret).getD ⟨[], []⟩

def nodeOf (c : Spec.Suite.BlockCipher) (w : Bool) : Node where
  own := ownPair w
  pair n := (newHandshakeKey toy ((start w).random n)).getD ⟨[], []⟩
  meths := meths w
  lib := Suite.exampleLib c
  impls := ⟨fun | .null => .memcpy | .aes128ctr => .openssl | _ => if w then .xmm64 else .xmm32, .builtin⟩
  sizes := ⟨(meths w).map fun x => prov x.2, 1500, false, false, false, 0⟩

@[reducible] def baseOf (w : Bool) : Env :=
  { Fastd.Daemon.Demo.env { mode := .tun } with groupMethods := fun _ => (meths w).map (·.1) }

@[reducible] noncomputable def envOf (c : Spec.Suite.BlockCipher) (w : Bool) : Env := env toy (nodeOf c w) (baseOf w)

theorem own_ok : ∀ w, protocolInit toy (start w).secret = some (ownPair w) := by decide +kernel
theorem valid_ok : ∀ w, (readKey toy (ownPair w).pub).isSome = true := by decide +kernel
theorem pair_ok : ∀ w, newHandshakeKey toy ((start w).random 0) = some ((newHandshakeKey toy ((start w).random 0)).getD ⟨[], []⟩) := by decide +kernel
theorem created_ok : ∀ w, ∀ x ∈ meths w, createByName (start w).build (start w).providers x.1 = .accept (methodOf x.2) := by decide +kernel

theorem started (c : Spec.Suite.BlockCipher) (w : Bool) : Started toy c (baseOf w) (start w) (nodeOf c w) where
  own := own_ok w
  valid := valid_ok w
  random n := by cases w <;> rfl
  pair n := by
    show newHandshakeKey toy ((start w).random n) = some ((newHandshakeKey toy ((start w).random n)).getD ⟨[], []⟩)
    rw [show (start w).random n = (start w).random 0 by cases w <;> rfl]
    exact pair_ok w
  build := by
    intro x hx
    cases w <;>
    · simp only [start, full, Config.MethodNames.allCiphers, List.mem_cons, List.not_mem_nil, or_false] at hx
      rcases hx with rfl | rfl | rfl | rfl
      · exact ⟨.aes128ctr, by decide⟩
      · exact ⟨.null, by decide⟩
      · exact ⟨.salsa20, by decide⟩
      · exact ⟨.salsa2012, by decide⟩
  created := created_ok w
  listed g n hn := by
    obtain ⟨x, hx, rfl⟩ := List.mem_map.1 hn
    exact ⟨x.2, hx⟩
  lib := Suite.exampleLib_ok c
  impls k := by cases w <;> cases k <;> rfl
  sizes := rfl
  payload := by show 1500 ≤ 65600; decide

theorem notNeutral : NotNeutral toy ⟨1, by decide⟩ (start true) (start false) := by
  intro x y h
  have s := started aes
  obtain ⟨h1, _⟩ := shared_eq toy_lawful (s true) (s false) x y
  rw [h] at h1
  have : (Real.shared toy (nodeOf aes true) true 0 (ownPair false).pub
      ((newHandshakeKey toy ((start false).random 0)).getD ⟨[], []⟩).pub).isSome = true := by decide +kernel
  have h2 : Real.shared toy (nodeOf aes true) true 0 (ownPair false).pub
      ((newHandshakeKey toy ((start false).random 0)).getD ⟨[], []⟩).pub = none := h1
  rw [h2] at this
  cases this

def conf : Handshake.Conf := { protocolName := [101, 99], version := [118], modeTun := true }

theorem fits : ∀ w, Handshake.reserved conf 0 none none (3 * Handshake.recordLen 32) ≤ Handshake.MAX_HANDSHAKE_SIZE ∧
    ∀ mtu : Fin 2, Handshake.reserved conf mtu none (some ((meths w).map (·.1))) (5 * Handshake.recordLen 32) ≤ Handshake.MAX_HANDSHAKE_SIZE ∧
      ∀ x ∈ meths w, Handshake.reserved conf mtu (some x.1) none (5 * Handshake.recordLen 32) ≤ Handshake.MAX_HANDSHAKE_SIZE := by decide +kernel

theorem fits_mtu (w : Bool) (mtu : Nat) : Handshake.reserved conf mtu none (some ((meths w).map (·.1))) (5 * Handshake.recordLen 32) ≤ Handshake.MAX_HANDSHAKE_SIZE ∧
    ∀ x ∈ meths w, Handshake.reserved conf mtu (some x.1) none (5 * Handshake.recordLen 32) ≤ Handshake.MAX_HANDSHAKE_SIZE := by
  by_cases h : mtu = 0
  · subst h; exact (fits w).2 0
  · have : Handshake.reserved conf mtu = Handshake.reserved conf 1 := by
      funext a b c
      unfold Handshake.reserved
      simp only [if_pos h, ne_eq, one_ne_zero, not_false_eq_true, if_true]
    rw [this]
    exact (fits w).2 1

theorem lengths : ∀ w, (ownPair w).pub.length = 32 ∧ ((newHandshakeKey toy ((start w).random 0)).getD ⟨[], []⟩).pub.length = 32 ∧
    1232 ≤ (nodeOf aes w).sizes.maxBuffer ∧ (∀ x ∈ meths w, ((meths w).findIdx? (·.1 = x.1)).isSome = true) := by decide +kernel

theorem sane (w : Bool) : @Sane (envOf aes w) := by
  obtain ⟨l1, l2, l3, l4⟩ := lengths w
  refine @Sane.mk (envOf aes w) (fun _ => rfl) l3 (by show (0 : UInt8) ∉ ([101, 99] : List UInt8); decide) l1
    (fun n => by cases w <;> exact l2) (fun g => ⟨by cases w <;> exact List.cons_ne_nil _ _, ?_⟩)
    ⟨(fits w).1, fun g mtu => ⟨(fits_mtu w mtu).1, fun n hn m hm => ?_⟩⟩
  · intro n hn
    obtain ⟨x, hx, rfl⟩ := List.mem_map.1 hn
    exact Option.isSome_iff_exists.1 (l4 x hx)
  · obtain ⟨x, hx, rfl⟩ := List.mem_map.1 hn
    obtain ⟨m', h1, h2⟩ := find_mem hm
    have : (envOf aes w).methodName m = x.1 := by
      show ((meths w)[m]?.map (·.1)).getD [] = x.1
      have h1 : (meths w)[m]? = some (x.1, m') := h1
      rw [h1]; rfl
    rw [this]
    exact (fits_mtu w mtu).2 x hx

theorem matching {pB pA : Peer} (hB : pB.key = (ownPair false).pub ∧ pB.mtu = 0) (hA : pA.key = (ownPair true).pub ∧ pA.mtu = 0) :
    Match (envOf aes true) (envOf aes false) (nodeOf aes true) (nodeOf aes false) pB pA where
  keyB := hB.1
  keyA := hA.1
  protocol := rfl
  mode := Iff.rfl
  mtu := by unfold Peer.getMtu; rw [hB.2, hA.2]; rfl
  mtuLt := by unfold Peer.getMtu; rw [hB.2]; decide
  common := ⟨nSalsa, by show nSalsa ∈ (meths false).map (·.1); decide, by show nSalsa ∈ (meths true).map (·.1); decide⟩
  poly := rfl

/-- The section for the daemon `w` in the configuration of the other one -/
def sectionFor (w : Bool) : PeerDef := { peer 0 [addrOf (if w then 1 else 2)] with key := some (ownPair w).pub }

open Connect.Example in
/-- Five seconds after its start the first daemon connects to the second one, with "salsa2012+umac", and packets can be sent in both directions. -/
example : ∃ (ca : @Ctx (envOf aes true)) (cb : @Ctx (envOf aes false)), @Reach (envOf aes true) (@Harmless (envOf aes true)) ca ∧
    @Reach (envOf aes false) (@Harmless (envOf aes false)) cb ∧
    After (envOf aes true) (.task 0) ca fun ca1 => ∃ loc d1, .send (.bound 0) loc (addrOf 2) (some 0) d1 ∈ logOf (envOf aes true) ca1 ∧
    After (envOf aes false) (.recv (.bound 0) (addrOf 2) (addrOf 1) d1) cb fun cb1 => ∃ i d2,
      .send (.bound 0) (addrOf 2) (addrOf 1) (some i) d2 ∈ logOf (envOf aes false) cb1 ∧
    After (envOf aes true) (.recv (.bound 0) (addrOf 1) (addrOf 2) d2) ca1 fun ca2 => ∃ d3,
    After (envOf aes false) (.recv (.bound 0) (addrOf 2) (addrOf 1) d3) cb1 fun cb3 =>
      (∃ key now now', Up (envOf aes true) ca2 0 (.bound 0) (addrOf 1) (addrOf 2) 1 key true now ∧
        Up (envOf aes false) cb3 i (.bound 0) (addrOf 2) (addrOf 1) 1 key false now') ∧
      Carries (envOf aes true) (envOf aes false) 1500 ca2 cb3 0 i (.bound 0) (addrOf 1) (addrOf 2) (.bound 0) (addrOf 2) (addrOf 1) ∧
      Carries (envOf aes false) (envOf aes true) 1500 cb3 ca2 i 0 (.bound 0) (addrOf 2) (addrOf 1) (.bound 0) (addrOf 1) (addrOf 2) := by
  obtain ⟨ca, ra, ha⟩ := @Daemon.Demo.safeRun_reach (envOf aes true) [sectionFor false] [.tick 5000] (@due (envOf aes true) (addrOf 2) (ownPair false).pub)
    (by decide +kernel)
  obtain ⟨cb, rb, hb⟩ := @Daemon.Demo.safeRun_reach (envOf aes false) [sectionFor true] [.tick 5000, .task 0]
    (fun c => @ready (envOf aes false) (addrOf 1) (ownPair true).pub (nextSerial (envOf aes false) c) c) (by decide +kernel)
  obtain ⟨pB, idB, kB, dueB, lastB, ifB⟩ := due_of ha
  obtain ⟨pA, kA, hearA, lastA, ifA, respA⟩ := @ready_of (envOf aes false) _ _ _ _ hb
  obtain ⟨_, ca1, e0, d1, s1, cb1, e1, d2, s2, ca2, e2, d3, _, cb3, e3, ⟨n, i, j, key, tA, tB, hn, hi, hj, upA, upB⟩, c1, c2⟩ :=
    C117_tunnel toy_lawful (started aes true) (started aes false) notNeutral (sane true) (sane false) (matching kB kA) ra (lA := addrOf 1) dueB
      (by decide) lastB (.inl ifB) rb (lB := addrOf 2) hearA (.inl respA) lastA (.inl ifA)
  have hn' : (((meths false).map (·.1)).find? (· ∈ (meths true).map (·.1))) = some n := hn
  rw [show (((meths false).map (·.1)).find? (· ∈ (meths true).map (·.1))) = some nSalsa by decide] at hn'
  cases hn'
  have hi' : (meths true).findIdx? (·.1 = nSalsa) = some i := hi
  rw [show (meths true).findIdx? (·.1 = nSalsa) = some 1 by decide] at hi'
  cases hi'
  have hj' : (meths false).findIdx? (·.1 = nSalsa) = some j := hj
  rw [show (meths false).findIdx? (·.1 = nSalsa) = some 1 by decide] at hj'
  cases hj'
  rw [idB] at e0 s1 upA c1 c2
  exact ⟨ca, cb, ra, rb, ca1, e0, _, d1, s1, cb1, e1, _, d2, s2, ca2, e2, d3, cb3, e3, ⟨key, _, _, upA, upB⟩, c1, c2⟩

end Example

end Fastd.Whole
