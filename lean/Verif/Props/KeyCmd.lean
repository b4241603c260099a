import Verif.Protocol.KeyCmd
import Verif.Props.Fhmqvc

/-!
# Property C103: `--generate-key` and `--show-key`

The keys that are printed are of use: the secret is accepted in the configuration, the public key by everyone else, both belong together, and two instances
that are configured with each other's keys agree on the keys of a handshake.
-/

namespace Fastd.Protocol.Fhmqvc

open Fastd.Crypto Fastd.Spec.Fhmqvc
open Fastd.Util (divideKey secureMemequal leVal C52_exact C51_roundtrip Denotes)

/-- What a user sees: one line `Secret: ` and one line `Public: `. -/
def KeyLines (out s p : Bytes) : Prop :=
  out = (ascii "Secret: " ++ s ++ [0x0a]) ++ (ascii "Public: " ++ p ++ [0x0a])

/-- The user runs `fastd --generate-key`. -/
def genRun (machine : Bool) : KeyConf := { generate := true, show_ := false, machine, secret := none }

/-- The user runs `fastd --show-key` with this secret in the configuration. -/
def showRun (machine : Bool) (s : Bytes) : KeyConf := { generate := false, show_ := true, machine, secret := some s }

/-- fastd is run with this secret. -/
def normalRun (s : Bytes) : KeyConf := { generate := false, show_ := false, machine := false, secret := some s }

variable {G : Type} [AddCommGroup G] {E : Ecc G} {P : G}

theorem randomBytes_some {l : Bytes} (h : 32 ≤ l.length) : randomBytes (some l) 32 = some (l.take 32) :=
  if_neg (by omega)

theorem protocolInit_sanitize (L : E.Lawful P) (r : Bytes) (hr : r.length = 32) :
    ∃ k, protocolInit E (E.sanitize r) = some k ∧ k.pub = E.store (E.scalarmultBase (E.sanitize r)) := by
  obtain ⟨k, hk⟩ := C31_ephemeral L r hr
  refine ⟨k, hk, ?_⟩
  rw [(newHandshakeKey_pair L hk).pub, L.scalarmultBase]

theorem readKey_pub (L : E.Lawful P) {r : Bytes} (hr : r.length = 32) :
    readKey E (E.store (E.scalarmultBase (E.sanitize r))) = some ⟨E.store (le (E.sanitize r) • P), le (E.sanitize r) • P⟩ := by
  have hs := (L.sanitize _ hr).2
  have hne := ephemeral_ne L hs.1 hs.2.1 hs.2.2
  unfold readKey
  rw [L.scalarmultBase, L.load]
  have : E.isIdentity (le (E.sanitize r) • P) = false := by
    rw [Bool.eq_false_iff]
    exact fun h => hne ((L.isIdentity _).1 h)
  simp only [this]
  rfl

/-- **C103, generating a key**: whatever random bytes there are, two lines with 64 hexadecimal digits are printed, or only the secret if the output is to be
machine-readable. fastd starts with this secret; with it, `--show-key` prints the same public key; and this public key is accepted as that of a peer. -/
theorem C103_generate (L : E.Lawful P) (l : Bytes) (hl : 32 ≤ l.length) :
    ∃ (s p out : Bytes) (key : Pair) (peer : PeerKey G),
      keyCommands E (genRun false) (some l) = .exit 0 out ∧ KeyLines out s p ∧
      keyCommands E (genRun true) (some l) = .exit 0 (s ++ [0x0a]) ∧
      s.length = 64 ∧ p.length = 64 ∧
      (∀ dev, keyCommands E (normalRun s) dev = .goesOn key) ∧ Denotes p key.pub ∧
      (∀ dev, keyCommands E (showRun true s) dev = .exit 0 (p ++ [0x0a])) ∧
      (∀ dev, keyCommands E (showRun false s) dev = .exit 0 (ascii "Public: " ++ p ++ [0x0a])) ∧
      readPeerKey E p = some peer ∧ peer.key = key.pub := by
  have hr : (l.take 32).length = 32 := by rw [List.length_take]; omega
  have hs := L.sanitize _ hr
  obtain ⟨k, hk, hp⟩ := protocolInit_sanitize L _ hr
  have hpl : (E.store (E.scalarmultBase (E.sanitize (l.take 32)))).length = 32 := L.store _
  have hi : initKey E (some (Util.hexdump (E.sanitize (l.take 32)))) = some k := by
    unfold initKey
    simp only [C51_roundtrip _ hs.1]
    exact hk
  refine ⟨Util.hexdump (E.sanitize (l.take 32)), Util.hexdump (E.store (E.scalarmultBase (E.sanitize (l.take 32)))), _, k,
    ⟨E.store (le (E.sanitize (l.take 32)) • P), le (E.sanitize (l.take 32)) • P⟩,
    ?_, rfl, ?_, ?_, ?_, ?_, ?_, ?_, ?_, ?_, ?_⟩
  · show (match generateKey E false (some l) with | some out => KeyRun.exit 0 out | none => .exit 1 []) = _
    unfold generateKey
    rw [randomBytes_some hl]
    rfl
  · show (match generateKey E true (some l) with | some out => KeyRun.exit 0 out | none => .exit 1 []) = _
    unfold generateKey
    rw [randomBytes_some hl]
    rfl
  · rw [Util.hexdump_length, hs.1]
  · rw [Util.hexdump_length, hpl]
  · intro dev
    show (match initKey E (some (Util.hexdump (E.sanitize (l.take 32)))) with
      | none => KeyRun.exit 1 [] | some key => if false then _ else .goesOn key) = _
    rw [hi]
    rfl
  · rw [hp]
    exact Util.C51_print _ hpl
  · intro dev
    show (match initKey E (some (Util.hexdump (E.sanitize (l.take 32)))) with
      | none => KeyRun.exit 1 [] | some key => if true then KeyRun.exit 0 (showKey true key) else .goesOn key) = _
    rw [hi, ← hp]
    rfl
  · intro dev
    show (match initKey E (some (Util.hexdump (E.sanitize (l.take 32)))) with
      | none => KeyRun.exit 1 [] | some key => if true then KeyRun.exit 0 (showKey false key) else .goesOn key) = _
    rw [hi, ← hp]
    rfl
  · unfold readPeerKey
    rw [C51_roundtrip _ hpl]
    exact readKey_pub L hr
  · rw [hp, L.scalarmultBase]

omit [AddCommGroup G] in
/-- **C103, no half keys**: if there are fewer than 32 random bytes, nothing is printed and the exit status is 1. -/
theorem C103_random (machine : Bool) (dev : Option Bytes) (h : ∀ l, dev = some l → l.length < 32) :
    keyCommands E (genRun machine) dev = .exit 1 [] := by
  have : randomBytes dev 32 = none := by
    cases dev with
    | none => rfl
    | some l => exact if_pos (h l rfl)
  show (match generateKey E machine dev with | some out => KeyRun.exit 0 out | none => .exit 1 []) = _
  unfold generateKey
  rw [this]

/-- **C103, showing a key**: for every secret that fastd would start with, the public key is the encoding of the secret times the base point; for other ones,
nothing is printed. These are the ones with other than 64 hexadecimal digits and those not divisible by 8. -/
theorem C103_show (L : E.Lawful P) (machine : Bool) (s : Bytes) (dev : Option Bytes) :
    (∃ k, Denotes s k ∧ 8 ∣ le k ∧
      keyCommands E (showRun machine s) dev =
        .exit 0 ((if machine then [] else ascii "Public: ") ++ Util.hexdump (E.store (le k • P)) ++ [0x0a])) ∨
    ((∀ k, Denotes s k → ¬ 8 ∣ le k) ∧ keyCommands E (showRun machine s) dev = .exit 1 [] ∧ keyCommands E (normalRun s) dev = .exit 1 []) := by
  have run : ∀ c : KeyConf, c.generate = false → c.secret = some s → keyCommands E c dev =
      match initKey E (some s) with
      | none => .exit 1 []
      | some key => if c.show_ then .exit 0 (showKey c.machine key) else .goesOn key := by
    intro c h1 h2
    unfold keyCommands
    rw [h1, h2]
    rfl
  rw [run _ rfl rfl, run (normalRun s) rfl rfl]
  have hi : initKey E (some s) = match Util.readKey s with | none => none | some k => protocolInit E k := rfl
  cases hk : Util.readKey s with
  | none =>
    rw [hk] at hi
    rw [hi]
    refine .inr ⟨fun k hd => ?_, rfl, rfl⟩
    rw [(Util.C51_accept s k).2 hd] at hk
    cases hk
  | some k =>
    rw [hk] at hi
    have hd := (Util.C51_accept s k).1 hk
    have hdiv := Util.C52_divide k
    by_cases h8 : 8 ∣ le k
    · refine .inl ⟨k, hd, h8, ?_⟩
      have hok := hdiv.2.2.2 (le_eq k ▸ h8)
      have : protocolInit E k = some ⟨(divideKey k).2, E.store (E.scalarmultBase k)⟩ := by
        show (if (divideKey k).1 = true then _ else none) = _
        rw [if_pos hok]
        rfl
      rw [hi.trans this, L.scalarmultBase]
      cases machine <;> rfl
    · have : protocolInit E k = none := by
        cases h : protocolInit E k with
        | none => rfl
        | some p => exact absurd (protocolInit_pair L h).dvd h8
      rw [hi.trans this]
      refine .inr ⟨fun k' hd' => ?_, rfl, rfl⟩
      have := (Util.C51_accept s k').2 hd'
      rw [hk] at this
      cases this
      exact h8

/-- **C103, two users**: each runs `--generate-key`, puts the secret into the own configuration, and gives the public key to the other one. Then both compute
the same keys in every handshake, those of the specification. -/
theorem C103_connect (L : E.Lawful P) (la lb : Bytes) (sa pa sb pb outa outb : Bytes) (hla : 32 ≤ la.length) (hlb : 32 ≤ lb.length)
    (ga : keyCommands E (genRun false) (some la) = .exit 0 outa) (gb : keyCommands E (genRun false) (some lb) = .exit 0 outb)
    (ka : KeyLines outa sa pa) (kb : KeyLines outb sb pb) (hsa : sa.length = 64) (hsb : sb.length = 64) (dev : Option Bytes) :
    ∃ (A B : Pair) (keyA keyB : PeerKey G) (a b : Nat),
      keyCommands E (normalRun sa) dev = .goesOn A ∧ keyCommands E (normalRun sb) dev = .goesOn B ∧
      readPeerKey E pa = some keyA ∧ readPeerKey E pb = some keyB ∧
      ∀ (x y : Bytes) (X Y : Pair), x.length = 32 → y.length = 32 → newHandshakeKey E x = some X → newHandshakeKey E y = some Y →
        makeShared E A true X keyB Y.pub = some (result E P a b (le (E.sanitize x)) (le (E.sanitize y))) ∧
        makeShared E B false Y keyA X.pub = some (result E P a b (le (E.sanitize x)) (le (E.sanitize y))) := by
  have one : ∀ (l s p out : Bytes), 32 ≤ l.length → keyCommands E (genRun false) (some l) = .exit 0 out → KeyLines out s p → s.length = 64 →
      ∃ (k : Bytes) (A : Pair) (key : PeerKey G), protocolInit E k = some A ∧ keyCommands E (normalRun s) dev = .goesOn A ∧
        readPeerKey E p = some key ∧ readKey E A.pub = some key := by
    intro l s p out hl hg hk hsl
    obtain ⟨s', p', out', key, peer, g', k', -, s64, p64, st, dp, -, -, rp, pk⟩ := C103_generate L l hl
    rw [hg] at g'
    cases g'
    unfold KeyLines at hk k'
    rw [hk] at k'
    simp only [List.append_assoc] at k'
    have k1 := List.append_cancel_left k'
    have k2 := List.append_inj k1 (by rw [hsl, s64])
    obtain ⟨e1, e2⟩ := k2
    subst e1
    have e3 := List.append_cancel_left (List.append_cancel_left e2)
    have e4 := List.append_cancel_right e3
    subst e4
    have hr := (Util.C51_accept _ _).2 dp
    have st' := st dev
    have hi : ∃ kk, Util.readKey s = some kk ∧ protocolInit E kk = some key := by
      unfold keyCommands normalRun initKey at st'
      cases hk : Util.readKey s with
      | none => simp [hk] at st'
      | some kk =>
        cases hp : protocolInit E kk with
        | none => simp [hk, hp] at st'
        | some k2 => simp [hk, hp] at st'; subst st'; exact ⟨kk, rfl, hp⟩
    obtain ⟨kk, -, hp⟩ := hi
    refine ⟨kk, key, peer, hp, st', rp, ?_⟩
    unfold readPeerKey at rp
    rw [hr] at rp
    exact rp
  obtain ⟨a, A, keyA, ia, na, ra, qa⟩ := one la sa pa outa hla ga ka hsa
  obtain ⟨b, B, keyB, ib, nb, rb, qb⟩ := one lb sb pb outb hlb gb kb hsb
  refine ⟨A, B, keyA, keyB, le a, le b, na, nb, ra, rb, ?_⟩
  intro x y X Y hx hy hX hY
  exact C31_shared L ⟨a, b, x, y, A, B, X, Y, keyA, keyB, ia, ib, ⟨hx, hX⟩, ⟨hy, hY⟩, qa, qb⟩

namespace Demo

/-- The output for some random bytes, and the public key that is shown for this secret -/
example : keyCommands toy (genRun true) (some (List.replicate 40 0x7b)) = .exit 0 (ascii "787b7b7b7b7b7b7b7b7b7b7b7b7b7b7b7b7b7b7b7b7b7b7b7b7b7b7b7b7b7b7b\n") ∧
    (∃ p, keyCommands toy (showRun true (ascii "787b7b7b7b7b7b7b7b7b7b7b7b7b7b7b7b7b7b7b7b7b7b7b7b7b7b7b7b7b7b7b")) none = .exit 0 p ∧ p.length = 65) ∧
    keyCommands toy (showRun true (ascii "797b7b7b7b7b7b7b7b7b7b7b7b7b7b7b7b7b7b7b7b7b7b7b7b7b7b7b7b7b7b7b")) none = .exit 1 [] :=
  ⟨by decide +kernel, ⟨_, rfl, by decide +kernel⟩, by decide +kernel⟩

end Demo

end Fastd.Protocol.Fhmqvc
