import Verif.Config.Grammar

/-!
# A parser for the grammar of the configuration

The parser fastd uses is generated by bison from src/config.y; the generated automaton is not part of the repository. The functions of this file read the
same grammar by recursive descent and are proved to agree with the derivations of `Verif/Config/Grammar.lean` in both directions.
-/

namespace Fastd.Config.Gram

open Fastd.Config (Bytes)
open Kw

/-! ## Parser -/

/-- One given token -/
def eat (t : T) : List T → Option (List T)
  | x :: r => if x = t then some r else none
  | [] => none

/-- A string -/
def pStr : List T → Option (Bytes × List T)
  | .str s :: r => some (s, r)
  | _ => none

/-- A number -/
def pUint : List T → Option (UInt64 × List T)
  | .uint n :: r => some (n, r)
  | _ => none

def pBool : List T → Option (Bool × List T)
  | .kw k :: r => if k = kYes then some (true, r) else if k = kNo then some (false, r) else none
  | _ => none

def pAuto (ts : List T) : Option (Option Bool × List T) :=
  match eat (.kw kAuto) ts with
  | some r => some (none, r)
  | none => (pBool ts).map fun (b, r) => (some b, r)

def pSync (ts : List T) : Bool × List T :=
  match eat (.kw kSync) ts with
  | some r => (true, r)
  | none => match eat (.kw kAsync) ts with
    | some r => (false, r)
    | none => (false, ts)

def pPort (ts : List T) : Option (UInt64 × List T) :=
  match eat .colon ts with
  | some r => pUint r
  | none => match eat (.kw kPort) ts with
    | some r => pUint r
    | none => none

def pMaybePort (ts : List T) : Option (Option UInt64 × List T) :=
  if (eat .colon ts).isSome || (eat (.kw kPort) ts).isSome then (pPort ts).map fun (n, r) => (some n, r) else some (none, ts)

def levelOf : Kw → Option Level
  | .kFatal => some .fatal
  | .kError => some .error
  | .kWarn => some .warn
  | .kInfo => some .info
  | .kVerbose => some .verbose
  | .kDebug => some .debug
  | .kDebug2 => some .debug2
  | _ => none

def pKw {α} (f : Kw → Option α) : List T → Option (α × List T)
  | .kw k :: r => (f k).map fun a => (a, r)
  | _ => none

def pMaybeLevel (ts : List T) : Option (Option Level × List T) :=
  match eat (.kw kLevel) ts with
  | some r => (pKw levelOf r).map fun (l, r) => (some l, r)
  | none => some (none, ts)

def pMaybeIface (ts : List T) : Option (Option Bytes × List T) :=
  match eat (.kw kInterface) ts with
  | some r => (pStr r).map fun (l, r) => (some l, r)
  | none => some (none, ts)

def pMaybeAs (ts : List T) : Option (Option Bytes × List T) :=
  match eat (.kw kAs) ts with
  | some r => (pStr r).map fun (l, r) => (some l, r)
  | none => some (none, ts)

def pMaybeDefault (ts : List T) : Option BindDefault × List T :=
  match eat (.kw kDefault) ts with
  | some r => match eat (.kw kIpv4) r with
    | some r => (some .ipv4, r)
    | none => match eat (.kw kIpv6) r with
      | some r => (some .ipv6, r)
      | none => (some .both, r)
  | none => (none, ts)

def dropCapsOf : Kw → Option DropCaps
  | .kEarly => some .early
  | .kForce => some .force
  | .kYes => some .on
  | .kNo => some .off
  | _ => none

def modeOf : Kw → Option Mode
  | .kTap => some .tap
  | .kMultitap => some .multitap
  | .kTun => some .tun
  | _ => none

def evOf : Kw → Option Ev
  | .kUp => some .up
  | .kDown => some .down
  | .kConnect => some .connect
  | .kEstablish => some .establish
  | .kDisestablish => some .disestablish
  | .kVerify => some .verify
  | _ => none

def pBindAddr : List T → Option (BindAddr × List T)
  | .addr4 a :: r => some (.v4 a, r)
  | .addr6 a :: r => some (.v6 a, r)
  | .kw k :: r => if k = kAny then some (.any, r) else none
  | _ => none

/-- What may follow `remote`, `remote ipv4` and `remote ipv6` -/
def pRemote (af : Af) : List T → Option (PStmt × List T)
  | .addr4 a :: r => if af = .inet6 then none else (pPort r).map fun (n, r) => (.remote4 a n, r)
  | .addr6 a :: r => if af = .inet then none else (pPort r).map fun (n, r) => (.remote6 a n, r)
  | .addr6s a i :: r => if af = .inet then none else (pPort r).map fun (n, r) => (.remote6s a i n, r)
  | .str h :: r => (pPort r).map fun (n, r) => (.remoteHost af h n, r)
  | _ => none

def pRemoteAf (ts : List T) : Option (PStmt × List T) :=
  match eat (.kw kIpv4) ts with
  | some r => pRemote .inet r
  | none => match eat (.kw kIpv6) ts with
    | some r => pRemote .inet6 r
    | none => pRemote .unspec ts

/-- A statement without its semicolon -/
def pPBody : List T → Option (PStmt × List T)
  | .kw k :: r => match k with
    | .kRemote => pRemoteAf r
    | .kFloat => (pBool r).map fun (b, r) => (.float b, r)
    | .kKey => (pStr r).map fun (s, r) => (.key s, r)
    | .kInterface => (pStr r).map fun (s, r) => (.interface s, r)
    | .kMtu => (pUint r).map fun (s, r) => (.mtu s, r)
    | .kInclude => (pStr r).map fun (s, r) => (.incl s, r)
    | _ => none
  | _ => none

/-- Something with a semicolon behind it -/
def semi {α} : Option (α × List T) → Option (α × List T)
  | some (a, r) => (eat .semi r).map fun r => (a, r)
  | none => none

def pP (ts : List T) : Option (PStmt × List T) := semi (pPBody ts)

/-- Statements up to a closing brace or the end -/
def pPConf : Nat → List T → Option (List PStmt × List T)
  | 0, _ => none
  | n + 1, ts =>
    if ts = [] ∨ ts.head? = some .rbrace then some ([], ts)
    else match pP ts with
      | some (s, r) => (pPConf n r).map fun (ss, r) => (s :: ss, r)
      | none => none

/-- A block in braces -/
def block {α} (p : List T → Option (α × List T)) (ts : List T) : Option (α × List T) :=
  match eat .lbrace ts with
  | some r => match p r with
    | some (a, r) => (eat .rbrace r).map fun r => (a, r)
    | none => none
  | none => none

/-- Statements of a peer group, without nested groups -/
def pGLeaf (n : Nat) : List T → Option (GStmt × List T)
  | .kw k :: r => match k with
    | .kPeer => match eat (.kw kLimit) r with
      | some r => semi ((pUint r).map fun (s, r) => (.limit s, r))
      | none => match pStr r with
        | some (name, r) => (block (pPConf n) r).map fun (b, r) => (.peer name b, r)
        | none => none
    | .kMethod => semi ((pStr r).map fun (s, r) => (.method s, r))
    | .kOn => match pKw evOf r with
      | some (ev, r) => semi ((pStr (pSync r).2).map fun (s, r') => (.on ev (pSync r).1 s, r'))
      | none => none
    | .kInclude => match eat (.kw kPeer) r with
      | some r => match pStr r with
        | some (f, r) => semi ((pMaybeAs r).map fun (a, r) => (.inclPeer f a, r))
        | none => none
      | none => match eat (.kw kPeers) r with
        | some r => match eat (.kw kFrom) r with
          | some r => semi ((pStr r).map fun (s, r) => (.inclPeers s, r))
          | none => none
        | none => semi ((pStr r).map fun (s, r) => (.incl s, r))
    | _ => none
  | _ => none

/-- The beginning of a nested group -/
def eatGroup (ts : List T) : Option (List T) :=
  match eat (.kw kPeer) ts with
  | some r => eat (.kw kGroup) r
  | none => none

/-- Statements of a peer group up to a closing brace or the end -/
def pGConf : Nat → List T → Option (List GStmt × List T)
  | 0, _ => none
  | n + 1, ts =>
    if ts = [] ∨ ts.head? = some .rbrace then some ([], ts)
    else match eatGroup ts with
      | some r => match pStr r with
        | some (name, r) => match block (pGConf n) r with
          | some (b, r) => (pGConf n r).map fun (ss, r) => (.group name b :: ss, r)
          | none => none
        | none => none
      | none => match pGLeaf n ts with
        | some (s, r) => (pGConf n r).map fun (ss, r) => (s :: ss, r)
        | none => none

/-- Global statements without their semicolon -/
def pSBody : List T → Option (Stmt × List T)
  | .kw k :: r => match k with
    | .kUser => (pStr r).map fun (s, r) => (.user s, r)
    | .kGroup => (pStr r).map fun (s, r) => (.group s, r)
    | .kDrop => match eat (.kw kCapabilities) r with
      | some r => (pKw dropCapsOf r).map fun (s, r) => (.dropCaps s, r)
      | none => none
    | .kSecure => match eat (.kw kHandshakes) r with
      | some r => (pBool r).map fun (s, r) => (.secureHandshakes s, r)
      | none => none
    | .kCipher => match pStr r with
      | some (a, r) => match eat (.kw kUse) r with
        | some r => (pStr r).map fun (s, r) => (.cipher a s, r)
        | none => none
      | none => none
    | .kMac => match pStr r with
      | some (a, r) => match eat (.kw kUse) r with
        | some r => (pStr r).map fun (s, r) => (.mac a s, r)
        | none => none
      | none => none
    | .kLog => match eat (.kw kLevel) r with
      | some r => (pKw levelOf r).map fun (s, r) => (.logLevel s, r)
      | none => match eat (.kw kTo) r with
        | some r => match eat (.kw kStderr) r with
          | some r => (pMaybeLevel r).map fun (s, r) => (.logStderr s, r)
          | none => match eat (.kw kSyslog) r with
            | some r => match pMaybeAs r with
              | some (i, r) => (pMaybeLevel r).map fun (s, r) => (.logSyslog i s, r)
              | none => none
            | none => none
        | none => none
    | .kHide => match eat (.kw kIp) r with
      | some r => match eat (.kw kAddresses) r with
        | some r => (pBool r).map fun (s, r) => (.hideIp s, r)
        | none => none
      | none => match eat (.kw kMac) r with
        | some r => match eat (.kw kAddresses) r with
          | some r => (pBool r).map fun (s, r) => (.hideMac s, r)
          | none => none
        | none => none
    | .kInterface => (pStr r).map fun (s, r) => (.interface s, r)
    | .kBind => match r with
      | .addr6s a i :: r => (pMaybePort r).map fun (p, r) => (.bindScoped a i p (pMaybeDefault r).1, (pMaybeDefault r).2)
      | r => match pBindAddr r with
        | some (a, r) => match pMaybePort r with
          | some (p, r) => (pMaybeIface r).map fun (i, r) => (.bind a p i (pMaybeDefault r).1, (pMaybeDefault r).2)
          | none => none
        | none => none
    | .kPacket => match eat (.kw kMark) r with
      | some r => (pUint r).map fun (s, r) => (.packetMark s, r)
      | none => none
    | .kMtu => (pUint r).map fun (s, r) => (.mtu s, r)
    | .kPmtu => (pAuto r).map fun (s, r) => (.pmtu s, r)
    | .kMode => (pKw modeOf r).map fun (s, r) => (.mode s, r)
    | .kPersist => match eat (.kw kInterface) r with
      | some r => (pBool r).map fun (s, r) => (.persist s, r)
      | none => none
    | .kOffload => match eat (.kw kL2tp) r with
      | some r => (pBool r).map fun (s, r) => (.offload s, r)
      | none => none
    | .kProtocol => (pStr r).map fun (s, r) => (.protocol s, r)
    | .kSecret => (pStr r).map fun (s, r) => (.secret s, r)
    | .kOn => match eat (.kw kPreUp) r with
      | some r => (pStr r).map fun (s, r) => (.preUp s, r)
      | none => match eat (.kw kPostDown) r with
        | some r => (pStr r).map fun (s, r) => (.postDown s, r)
        | none => none
    | .kStatus => match eat (.kw kSocket) r with
      | some r => (pStr r).map fun (s, r) => (.statusSocket s, r)
      | none => none
    | .kForward => (pBool r).map fun (s, r) => (.forward s, r)
    | _ => none
  | _ => none

def pSimple (ts : List T) : Option (Stmt × List T) := semi (pSBody ts)

/-- A whole file -/
def pConf : Nat → List T → Option (List Stmt)
  | 0, _ => none
  | n + 1, ts =>
    if ts = [] then some []
    else match eatGroup ts with
      | some r => match pStr r with
        | some (name, r) => match block (pGConf n) r with
          | some (b, r) => (pConf n r).map fun ss => .g (.group name b) :: ss
          | none => none
        | none => none
      | none => match pGLeaf n ts with
        | some (s, r) => (pConf n r).map fun ss => .g s :: ss
        | none => match pSimple ts with
          | some (s, r) => (pConf n r).map fun ss => s :: ss
          | none => none

/-! ## Soundness -/

theorem eat_iff {t ts r} : eat t ts = some r ↔ ts = t :: r := by
  cases ts with
  | nil => simp [eat]
  | cons x xs =>
    simp only [eat]
    split
    · rename_i h; subst h; simp
    · rename_i h; simp [h]

theorem pStr_iff {ts s r} : pStr ts = some (s, r) ↔ ts = .str s :: r := by
  cases ts with
  | nil => simp [pStr]
  | cons x xs => cases x <;> simp [pStr]

theorem pUint_iff {ts s r} : pUint ts = some (s, r) ↔ ts = .uint s :: r := by
  cases ts with
  | nil => simp [pUint]
  | cons x xs => cases x <;> simp [pUint]

theorem pBool_iff {ts b r} : pBool ts = some (b, r) ↔ ∃ t, DBool b t ∧ ts = t ++ r := by
  constructor
  · intro h
    unfold pBool at h
    split at h
    · split at h
      · rename_i hk; subst hk; simp at h; obtain ⟨rfl, rfl⟩ := h; exact ⟨_, .yes, rfl⟩
      · split at h
        · rename_i hk; subst hk; simp at h; obtain ⟨rfl, rfl⟩ := h; exact ⟨_, .no, rfl⟩
        · cases h
    · cases h
  · rintro ⟨t, h, rfl⟩
    cases h <;> simp [pBool]

theorem pKw_iff {α} {f : Kw → Option α} {ts a r} : pKw f ts = some (a, r) ↔ ∃ k, f k = some a ∧ ts = .kw k :: r := by
  cases ts with
  | nil => simp [pKw]
  | cons x xs =>
    cases x <;> simp [pKw]
    constructor
    · rintro ⟨_, h, rfl, rfl⟩; exact ⟨_, h, rfl, rfl⟩
    · rintro ⟨_, h, rfl, rfl⟩; exact ⟨_, h, rfl, rfl⟩

theorem semi_iff {α} {o : Option (α × List T)} {a r} : semi o = some (a, r) ↔ o = some (a, .semi :: r) := by
  cases o with
  | none => simp [semi]
  | some x =>
    obtain ⟨a', r'⟩ := x
    simp only [semi, Option.map_eq_some_iff, eat_iff, Prod.mk.injEq, Option.some.injEq]
    constructor
    · rintro ⟨r'', rfl, rfl, rfl⟩; exact ⟨rfl, rfl⟩
    · rintro ⟨rfl, rfl⟩; exact ⟨_, rfl, rfl, rfl⟩

theorem map_iff {α β} {o : Option (α × List T)} {f : α → β} {b r} : (o.map fun (a, r) => (f a, r)) = some (b, r) ↔ ∃ a, o = some (a, r) ∧ f a = b := by
  cases o with
  | none => simp
  | some x => obtain ⟨a, r'⟩ := x; simp; constructor
              · rintro ⟨rfl, rfl⟩; exact ⟨_, ⟨rfl, rfl⟩, rfl⟩
              · rintro ⟨_, ⟨rfl, rfl⟩, rfl⟩; exact ⟨rfl, rfl⟩

theorem block_iff {α} {p : List T → Option (α × List T)} {ts a r} :
    block p ts = some (a, r) ↔ ∃ r₁, ts = .lbrace :: r₁ ∧ p r₁ = some (a, .rbrace :: r) := by
  unfold block
  cases h : eat .lbrace ts with
  | none =>
    simp only [reduceCtorEq, false_iff]
    rintro ⟨r₁, rfl, _⟩
    simp [eat] at h
  | some r' =>
    rw [eat_iff] at h
    subst h
    simp only [List.cons.injEq, true_and]
    cases h2 : p r' with
    | none => simp [h2]
    | some x =>
      obtain ⟨a', r''⟩ := x
      simp only [Option.map_eq_some_iff, eat_iff]
      constructor
      · rintro ⟨r3, rfl, h3⟩; simp only [Prod.mk.injEq] at h3; obtain ⟨rfl, rfl⟩ := h3; exact ⟨_, rfl, h2⟩
      · rintro ⟨_, rfl, h3⟩; rw [h2] at h3; simp only [Option.some.injEq, Prod.mk.injEq] at h3; obtain ⟨rfl, rfl⟩ := h3; exact ⟨_, rfl, rfl⟩

theorem pPort_iff {ts n r} : pPort ts = some (n, r) ↔ ∃ t, DPort n t ∧ ts = t ++ r := by
  constructor
  · intro h
    unfold pPort at h
    split at h
    · rename_i hk; rw [eat_iff] at hk; rw [pUint_iff] at h; subst hk; subst h; exact ⟨_, .colon n, rfl⟩
    · split at h
      · rename_i hk; rw [eat_iff] at hk; rw [pUint_iff] at h; subst hk; subst h; exact ⟨_, .word n, rfl⟩
      · cases h
  · rintro ⟨t, h, rfl⟩
    cases h <;> simp [pPort, eat, pUint]

theorem pAuto_iff {ts b r} : pAuto ts = some (b, r) ↔ ∃ t, DAuto b t ∧ ts = t ++ r := by
  constructor
  · intro h
    unfold pAuto at h
    split at h
    · rename_i hk; rw [eat_iff] at hk; subst hk; simp at h; obtain ⟨rfl, rfl⟩ := h; exact ⟨_, .auto, rfl⟩
    · rw [map_iff] at h
      obtain ⟨b, h, rfl⟩ := h
      rw [pBool_iff] at h
      obtain ⟨t, h, rfl⟩ := h
      exact ⟨_, .bool h, rfl⟩
  · rintro ⟨t, h, rfl⟩
    cases h with
    | auto => simp [pAuto, eat]
    | bool h => cases h <;> simp [pAuto, eat, pBool]

theorem pSync_sound (ts) : ∃ t, DSync (pSync ts).1 t ∧ ts = t ++ (pSync ts).2 := by
  unfold pSync
  split
  · rename_i hk; rw [eat_iff] at hk; subst hk; exact ⟨_, .sync, rfl⟩
  · split
    · rename_i hk; rw [eat_iff] at hk; subst hk; exact ⟨_, .async, rfl⟩
    · exact ⟨_, .none, rfl⟩

theorem pSync_complete {b t s r} (h : DSync b t) : pSync (t ++ .str s :: r) = (b, .str s :: r) := by
  cases h <;> simp [pSync, eat]

theorem pMaybePort_sound {ts p r} (h : pMaybePort ts = some (p, r)) : ∃ t, DMaybePort p t ∧ ts = t ++ r := by
  unfold pMaybePort at h
  split at h
  · rw [map_iff] at h
    obtain ⟨n, h, rfl⟩ := h
    rw [pPort_iff] at h
    obtain ⟨t, h, rfl⟩ := h
    exact ⟨_, .some h, rfl⟩
  · simp at h; obtain ⟨rfl, rfl⟩ := h; exact ⟨_, .none, rfl⟩

theorem pMaybePort_complete {p t r} (h : DMaybePort p t) (h1 : eat .colon r = none) (h2 : eat (.kw kPort) r = none) : pMaybePort (t ++ r) = some (p, r) := by
  cases h with
  | some h => cases h <;> simp [pMaybePort, pPort, eat, pUint]
  | none => simp [pMaybePort, h1, h2]

theorem levelOf_iff {k l} : levelOf k = some l ↔ DLevel l [.kw k] := by
  constructor
  · intro h; cases k <;> simp [levelOf] at h <;> subst h <;> constructor
  · intro h; cases h <;> rfl

theorem dropCapsOf_iff {k l} : dropCapsOf k = some l ↔ DDropCaps l [.kw k] := by
  constructor
  · intro h; cases k <;> simp [dropCapsOf] at h <;> subst h <;> constructor
  · intro h; cases h <;> rfl

theorem modeOf_iff {k l} : modeOf k = some l ↔ DMode l [.kw k] := by
  constructor
  · intro h; cases k <;> simp [modeOf] at h <;> subst h <;> constructor
  · intro h; cases h <;> rfl

theorem evOf_iff {k l} : evOf k = some l ↔ DEv l [.kw k] := by
  constructor
  · intro h; cases k <;> simp [evOf] at h <;> subst h <;> constructor
  · intro h; cases h <;> rfl

theorem pLevel_iff {ts l r} : pKw levelOf ts = some (l, r) ↔ ∃ t, DLevel l t ∧ ts = t ++ r := by
  rw [pKw_iff]
  constructor
  · rintro ⟨k, h, rfl⟩; exact ⟨_, levelOf_iff.1 h, rfl⟩
  · rintro ⟨t, h, rfl⟩; cases h <;> exact ⟨_, rfl, rfl⟩

theorem pDropCaps_iff {ts l r} : pKw dropCapsOf ts = some (l, r) ↔ ∃ t, DDropCaps l t ∧ ts = t ++ r := by
  rw [pKw_iff]
  constructor
  · rintro ⟨k, h, rfl⟩; exact ⟨_, dropCapsOf_iff.1 h, rfl⟩
  · rintro ⟨t, h, rfl⟩; cases h <;> exact ⟨_, rfl, rfl⟩

theorem pMode_iff {ts l r} : pKw modeOf ts = some (l, r) ↔ ∃ t, DMode l t ∧ ts = t ++ r := by
  rw [pKw_iff]
  constructor
  · rintro ⟨k, h, rfl⟩; exact ⟨_, modeOf_iff.1 h, rfl⟩
  · rintro ⟨t, h, rfl⟩; cases h <;> exact ⟨_, rfl, rfl⟩

theorem pEv_iff {ts l r} : pKw evOf ts = some (l, r) ↔ ∃ t, DEv l t ∧ ts = t ++ r := by
  rw [pKw_iff]
  constructor
  · rintro ⟨k, h, rfl⟩; exact ⟨_, evOf_iff.1 h, rfl⟩
  · rintro ⟨t, h, rfl⟩; cases h <;> exact ⟨_, rfl, rfl⟩

theorem pMaybeLevel_sound {ts p r} (h : pMaybeLevel ts = some (p, r)) : ∃ t, DMaybeLevel p t ∧ ts = t ++ r := by
  unfold pMaybeLevel at h
  split at h
  · rename_i hk; rw [eat_iff] at hk; subst hk
    rw [map_iff] at h
    obtain ⟨n, h, rfl⟩ := h
    rw [pLevel_iff] at h
    obtain ⟨t, h, rfl⟩ := h
    exact ⟨_, .some h, rfl⟩
  · simp at h; obtain ⟨rfl, rfl⟩ := h; exact ⟨_, .none, rfl⟩

theorem pMaybeLevel_complete {p t r} (h : DMaybeLevel p t) (h1 : eat (.kw kLevel) r = none) : pMaybeLevel (t ++ r) = some (p, r) := by
  cases h with
  | some h => cases h <;> simp [pMaybeLevel, eat, pKw, levelOf]
  | none => simp [pMaybeLevel, h1]

theorem pMaybeIface_sound {ts p r} (h : pMaybeIface ts = some (p, r)) : ∃ t, DMaybeIface p t ∧ ts = t ++ r := by
  unfold pMaybeIface at h
  split at h
  · rename_i hk; rw [eat_iff] at hk; subst hk
    rw [map_iff] at h
    obtain ⟨n, h, rfl⟩ := h
    rw [pStr_iff] at h
    subst h
    exact ⟨_, .some _, rfl⟩
  · simp at h; obtain ⟨rfl, rfl⟩ := h; exact ⟨_, .none, rfl⟩

theorem pMaybeIface_complete {p t r} (h : DMaybeIface p t) (h1 : eat (.kw kInterface) r = none) : pMaybeIface (t ++ r) = some (p, r) := by
  cases h with
  | some h => simp [pMaybeIface, eat, pStr]
  | none => simp [pMaybeIface, h1]

theorem pMaybeAs_sound {ts p r} (h : pMaybeAs ts = some (p, r)) : ∃ t, DMaybeAs p t ∧ ts = t ++ r := by
  unfold pMaybeAs at h
  split at h
  · rename_i hk; rw [eat_iff] at hk; subst hk
    rw [map_iff] at h
    obtain ⟨n, h, rfl⟩ := h
    rw [pStr_iff] at h
    subst h
    exact ⟨_, .some _, rfl⟩
  · simp at h; obtain ⟨rfl, rfl⟩ := h; exact ⟨_, .none, rfl⟩

theorem pMaybeAs_complete {p t r} (h : DMaybeAs p t) (h1 : eat (.kw kAs) r = none) : pMaybeAs (t ++ r) = some (p, r) := by
  cases h with
  | some h => simp [pMaybeAs, eat, pStr]
  | none => simp [pMaybeAs, h1]

theorem pMaybeDefault_sound (ts) : ∃ t, DMaybeDefault (pMaybeDefault ts).1 t ∧ ts = t ++ (pMaybeDefault ts).2 := by
  unfold pMaybeDefault
  split
  · rename_i hk; rw [eat_iff] at hk; subst hk
    split
    · rename_i hk; rw [eat_iff] at hk; subst hk; exact ⟨_, .ipv4, rfl⟩
    · split
      · rename_i hk; rw [eat_iff] at hk; subst hk; exact ⟨_, .ipv6, rfl⟩
      · exact ⟨_, .both, rfl⟩
  · exact ⟨_, .none, rfl⟩

theorem pMaybeDefault_complete {p t r} (h : DMaybeDefault p t) : pMaybeDefault (t ++ .semi :: r) = (p, .semi :: r) := by
  cases h <;> simp [pMaybeDefault, eat]

theorem pBindAddr_iff {ts a r} : pBindAddr ts = some (a, r) ↔ ∃ t, DBindAddr a t ∧ ts = t ++ r := by
  constructor
  · intro h
    unfold pBindAddr at h
    split at h
    · simp at h; obtain ⟨rfl, rfl⟩ := h; exact ⟨_, .v4 _, rfl⟩
    · simp at h; obtain ⟨rfl, rfl⟩ := h; exact ⟨_, .v6 _, rfl⟩
    · split at h
      · rename_i hk; subst hk; simp at h; obtain ⟨rfl, rfl⟩ := h; exact ⟨_, .any, rfl⟩
      · cases h
    · cases h
  · rintro ⟨t, h, rfl⟩
    cases h <;> simp [pBindAddr]

/-! ## Statements about peers -/

theorem pRemoteAf_sound {ts s r} (h₀ : pRemoteAf ts = some (s, .semi :: r)) : ∃ t, DPStmt s t ∧ .kw kRemote :: ts = t ++ r := by
  have key : ∀ (af : Af) (f ts : List T), (af = .inet → f = [.kw kIpv4]) → (af = .inet6 → f = [.kw kIpv6]) → (af = .unspec → f = []) →
      pRemote af ts = some (s, .semi :: r) → ∃ t, DPStmt s t ∧ .kw kRemote :: (f ++ ts) = t ++ r := by
    intro af f ts h4 h6 h0 h
    unfold pRemote at h
    have hf : DMaybeAf af f := by
      cases af
      · rw [h0 rfl]; exact .none
      · rw [h4 rfl]; exact .v4
      · rw [h6 rfl]; exact .v6
    split at h
    · split at h
      · cases h
      · rename_i hne
        rw [map_iff] at h
        obtain ⟨n, h, rfl⟩ := h
        rw [pPort_iff] at h
        obtain ⟨t, h, rfl⟩ := h
        refine ⟨_, .remote4 (f := f) ?_ h, by simp⟩
        cases af
        · exact .inl (h0 rfl)
        · exact .inr (h4 rfl)
        · exact absurd rfl hne
    · split at h
      · cases h
      · rename_i hne
        rw [map_iff] at h
        obtain ⟨n, h, rfl⟩ := h
        rw [pPort_iff] at h
        obtain ⟨t, h, rfl⟩ := h
        refine ⟨_, .remote6 (f := f) ?_ h, by simp⟩
        cases af
        · exact .inl (h0 rfl)
        · exact absurd rfl hne
        · exact .inr (h6 rfl)
    · split at h
      · cases h
      · rename_i hne
        rw [map_iff] at h
        obtain ⟨n, h, rfl⟩ := h
        rw [pPort_iff] at h
        obtain ⟨t, h, rfl⟩ := h
        refine ⟨_, .remote6s (f := f) ?_ h, by simp⟩
        cases af
        · exact .inl (h0 rfl)
        · exact absurd rfl hne
        · exact .inr (h6 rfl)
    · rw [map_iff] at h
      obtain ⟨n, h, rfl⟩ := h
      rw [pPort_iff] at h
      obtain ⟨t, h, rfl⟩ := h
      exact ⟨_, .remoteHost hf h, by simp⟩
    · cases h
  unfold pRemoteAf at h₀
  split at h₀
  · rename_i hk; rw [eat_iff] at hk; subst hk
    exact key .inet [.kw kIpv4] _ (by simp) (by simp) (by simp) h₀
  · split at h₀
    · rename_i hk; rw [eat_iff] at hk; subst hk
      exact key .inet6 [.kw kIpv6] _ (by simp) (by simp) (by simp) h₀
    · exact key .unspec [] _ (by simp) (by simp) (by simp) h₀

theorem pP_sound {ts s r} (h : pP ts = some (s, r)) : ∃ t, DPStmt s t ∧ ts = t ++ r := by
  unfold pP at h
  rw [semi_iff] at h
  unfold pPBody at h
  split at h
  · split at h
    · exact pRemoteAf_sound h
    · rw [map_iff] at h
      obtain ⟨b, h, rfl⟩ := h
      rw [pBool_iff] at h
      obtain ⟨t, h, rfl⟩ := h
      exact ⟨_, .float h, by simp⟩
    · rw [map_iff] at h
      obtain ⟨b, h, rfl⟩ := h
      rw [pStr_iff] at h
      subst h
      exact ⟨_, .key _, rfl⟩
    · rw [map_iff] at h
      obtain ⟨b, h, rfl⟩ := h
      rw [pStr_iff] at h
      subst h
      exact ⟨_, .interface _, rfl⟩
    · rw [map_iff] at h
      obtain ⟨b, h, rfl⟩ := h
      rw [pUint_iff] at h
      subst h
      exact ⟨_, .mtu _, rfl⟩
    · rw [map_iff] at h
      obtain ⟨b, h, rfl⟩ := h
      rw [pStr_iff] at h
      subst h
      exact ⟨_, .incl _, rfl⟩
    · cases h
  · cases h

theorem pP_complete {s t} (r) (h : DPStmt s t) : pP (t ++ r) = some (s, r) := by
  have port : ∀ {n t} (r : List T), DPort n t → pPort (t ++ r) = some (n, r) := fun r h => pPort_iff.2 ⟨_, h, rfl⟩
  unfold pP
  rw [semi_iff]
  cases h with
  | remote4 hf hp => rcases hf with rfl | rfl <;> simp [pPBody, pRemoteAf, eat, pRemote, port _ hp]
  | remote6 hf hp => rcases hf with rfl | rfl <;> simp [pPBody, pRemoteAf, eat, pRemote, port _ hp]
  | remote6s hf hp => rcases hf with rfl | rfl <;> simp [pPBody, pRemoteAf, eat, pRemote, port _ hp]
  | remoteHost hf hp => cases hf <;> simp [pPBody, pRemoteAf, eat, pRemote, port _ hp]
  | float h => cases h <;> simp [pPBody, pBool]
  | _ => simp [pPBody, pStr, pUint]

theorem DPStmt.head {s t} (h : DPStmt s t) : ∃ k t', t = .kw k :: t' := by
  cases h <;> exact ⟨_, _, rfl⟩

/-- Where a list of statements ends -/
def Stop (r : List T) : Prop := r = [] ∨ r.head? = some .rbrace

instance (r) : Decidable (Stop r) := inferInstanceAs (Decidable (_ ∨ _))

theorem pPConf_sound {n ts ss r} (h : pPConf n ts = some (ss, r)) : Stop r ∧ ∃ t, DPConf ss t ∧ ts = t ++ r := by
  induction n generalizing ts ss r with
  | zero => cases h
  | succ n ih =>
    unfold pPConf at h
    split at h
    · rename_i hs; simp at h; obtain ⟨rfl, rfl⟩ := h; exact ⟨hs, _, .nil, rfl⟩
    · split at h
      · rename_i s r' hp
        rw [map_iff] at h
        obtain ⟨ss, h, rfl⟩ := h
        obtain ⟨hs, t, hd, rfl⟩ := ih h
        obtain ⟨t', hd', rfl⟩ := pP_sound hp
        exact ⟨hs, _, .cons hd' hd, by simp⟩
      · cases h

theorem pPConf_complete {n ss t r} (h : DPConf ss t) (hr : Stop r) (hn : t.length < n) : pPConf n (t ++ r) = some (ss, r) := by
  induction n generalizing ss t with
  | zero => omega
  | succ n ih =>
    cases h with
    | nil => unfold pPConf; rw [if_pos (by exact hr)]; rfl
    | @cons s ss t ts hd hc =>
      obtain ⟨k, t', rfl⟩ := hd.head
      unfold pPConf
      rw [if_neg (by simp), List.append_assoc, pP_complete _ hd]
      simp only
      rw [ih hc (by simp at hn; omega)]
      rfl

/-! ## Statements of peer groups -/

theorem pGLeaf_sound {n ts s r} (h : pGLeaf n ts = some (s, r)) : ∃ t, DGLeaf s t ∧ ts = t ++ r := by
  unfold pGLeaf at h
  split at h
  · split at h
    · split at h
      · rename_i hk; rw [eat_iff] at hk; subst hk
        rw [semi_iff, map_iff] at h
        obtain ⟨b, h, rfl⟩ := h
        rw [pUint_iff] at h
        subst h
        exact ⟨_, .limit _, rfl⟩
      · split at h
        · rename_i hk; rw [pStr_iff] at hk; subst hk
          rw [map_iff] at h
          obtain ⟨b, h, rfl⟩ := h
          rw [block_iff] at h
          obtain ⟨r₁, rfl, h⟩ := h
          obtain ⟨_, t, hd, rfl⟩ := pPConf_sound h
          exact ⟨_, .peer hd, by simp⟩
        · cases h
    · rw [semi_iff, map_iff] at h
      obtain ⟨b, h, rfl⟩ := h
      rw [pStr_iff] at h
      subst h
      exact ⟨_, .method _, rfl⟩
    · split at h
      · rename_i ev r' hk
        rw [pEv_iff] at hk
        obtain ⟨te, hev, rfl⟩ := hk
        rw [semi_iff, map_iff] at h
        obtain ⟨b, h, rfl⟩ := h
        rw [pStr_iff] at h
        obtain ⟨ts, hs, hts⟩ := pSync_sound r'
        rw [h] at hts
        refine ⟨_, .on hev hs, ?_⟩
        rw [hts]
        simp
      · cases h
    · split at h
      · rename_i hk; rw [eat_iff] at hk; subst hk
        split at h
        · rename_i hk; rw [pStr_iff] at hk; subst hk
          rw [semi_iff, map_iff] at h
          obtain ⟨b, h, rfl⟩ := h
          obtain ⟨t, hd, rfl⟩ := pMaybeAs_sound h
          exact ⟨_, .inclPeer hd, by simp⟩
        · cases h
      · split at h
        · rename_i hk; rw [eat_iff] at hk; subst hk
          split at h
          · rename_i hk; rw [eat_iff] at hk; subst hk
            rw [semi_iff, map_iff] at h
            obtain ⟨b, h, rfl⟩ := h
            rw [pStr_iff] at h
            subst h
            exact ⟨_, .inclPeers _, rfl⟩
          · cases h
        · rw [semi_iff, map_iff] at h
          obtain ⟨b, h, rfl⟩ := h
          rw [pStr_iff] at h
          subst h
          exact ⟨_, .incl _, rfl⟩
    · cases h
  · cases h

theorem pGLeaf_complete {n s t} (r) (h : DGLeaf s t) (hn : t.length ≤ n) : pGLeaf n (t ++ r) = some (s, r) := by
  cases h with
  | @peer name body t hd =>
    have hp : pPConf n (t ++ .rbrace :: r) = some (body, .rbrace :: r) := pPConf_complete hd (.inr rfl) (by simp at hn; omega)
    have hb : block (pPConf n) (.lbrace :: (t ++ .rbrace :: r)) = some (body, r) := block_iff.2 ⟨_, rfl, hp⟩
    simp [pGLeaf, eat, pStr, hb]
  | limit => simp [pGLeaf, eat, pUint, semi]
  | method => simp [pGLeaf, eat, pStr, semi]
  | @on ev sync cmd te ts he hs =>
    have := (pEv_iff (r := ts ++ .str cmd :: .semi :: r)).2 ⟨te, he, rfl⟩
    simp [pGLeaf, this, pSync_complete hs, pStr, semi, eat]
  | @inclPeer f a t hd =>
    have := pMaybeAs_complete (r := .semi :: r) hd rfl
    simp [pGLeaf, eat, pStr, semi, this]
  | inclPeers => simp [pGLeaf, eat, pStr, semi]
  | incl => simp [pGLeaf, eat, pStr, semi]

theorem eatGroup_iff {ts r} : eatGroup ts = some r ↔ ts = .kw kPeer :: .kw kGroup :: r := by
  unfold eatGroup
  split
  · rename_i hk; rw [eat_iff] at hk; subst hk; rw [eat_iff]; simp
  · rename_i hk
    simp only [reduceCtorEq, false_iff]
    rintro rfl
    simp [eat] at hk

theorem DGLeaf.head {s t} (h : DGLeaf s t) (r) : (∃ k t', t = .kw k :: t') ∧ eatGroup (t ++ r) = none := by
  cases h <;> exact ⟨⟨_, _, rfl⟩, by simp [eatGroup, eat]⟩

theorem pGConf_sound {n ts ss r} (h : pGConf n ts = some (ss, r)) : Stop r ∧ ∃ t, DGConf ss t ∧ ts = t ++ r := by
  induction n generalizing ts ss r with
  | zero => cases h
  | succ n ih =>
    unfold pGConf at h
    split at h
    · rename_i hs; simp at h; obtain ⟨rfl, rfl⟩ := h; exact ⟨hs, _, .nil, rfl⟩
    · split at h
      · rename_i hk; rw [eatGroup_iff] at hk; subst hk
        split at h
        · rename_i hk; rw [pStr_iff] at hk; subst hk
          split at h
          · rename_i hb
            rw [block_iff] at hb
            obtain ⟨r₁, rfl, hb⟩ := hb
            obtain ⟨_, t, hd, rfl⟩ := ih hb
            rw [map_iff] at h
            obtain ⟨ss, h, rfl⟩ := h
            obtain ⟨hs, t', hd', rfl⟩ := ih h
            exact ⟨hs, _, .group hd hd', by simp⟩
          · cases h
        · cases h
      · split at h
        · rename_i s r' hp
          rw [map_iff] at h
          obtain ⟨ss, h, rfl⟩ := h
          obtain ⟨hs, t, hd, rfl⟩ := ih h
          obtain ⟨t', hd', rfl⟩ := pGLeaf_sound hp
          exact ⟨hs, _, .leaf hd' hd, by simp⟩
        · cases h

theorem pGConf_complete {n ss t r} (h : DGConf ss t) (hr : Stop r) (hn : t.length < n) : pGConf n (t ++ r) = some (ss, r) := by
  induction n generalizing ss t r with
  | zero => omega
  | succ n ih =>
    cases h with
    | nil => unfold pGConf; rw [if_pos (by exact hr)]; rfl
    | @leaf s ss t ts hd hc =>
      obtain ⟨⟨k, t', rfl⟩, hg⟩ := hd.head (ts ++ r)
      unfold pGConf
      rw [if_neg (by simp), List.append_assoc, hg, pGLeaf_complete _ hd (by simp at hn ⊢; omega)]
      simp only
      rw [ih hc hr (by simp at hn; omega)]
      rfl
    | @group name body ss t ts hb hc =>
      unfold pGConf
      have h1 : pGConf n (t ++ .rbrace :: (ts ++ r)) = some (body, .rbrace :: (ts ++ r)) := ih hb (.inr rfl) (by simp at hn; omega)
      have h2 : block (pGConf n) (.lbrace :: (t ++ .rbrace :: (ts ++ r))) = some (body, ts ++ r) := block_iff.2 ⟨_, rfl, h1⟩
      have h3 := ih hc hr (by simp at hn; omega)
      simp [eatGroup, eat, pStr, h2, h3]

/-! ## Global statements -/

theorem pSimple_sound {ts s r} (h : pSimple ts = some (s, r)) : ∃ t, DSimple s t ∧ ts = t ++ r := by
  unfold pSimple at h
  rw [semi_iff] at h
  unfold pSBody at h
  split at h
  · split at h
    · rw [map_iff] at h
      obtain ⟨b, h, rfl⟩ := h
      rw [pStr_iff] at h
      subst h
      exact ⟨_, .user _, rfl⟩
    · rw [map_iff] at h
      obtain ⟨b, h, rfl⟩ := h
      rw [pStr_iff] at h
      subst h
      exact ⟨_, .group _, rfl⟩
    · split at h
      · rename_i hk; rw [eat_iff] at hk; subst hk
        rw [map_iff] at h
        obtain ⟨b, h, rfl⟩ := h
        rw [pDropCaps_iff] at h
        obtain ⟨t, h, rfl⟩ := h
        exact ⟨_, .dropCaps h, by simp⟩
      · cases h
    · split at h
      · rename_i hk; rw [eat_iff] at hk; subst hk
        rw [map_iff] at h
        obtain ⟨b, h, rfl⟩ := h
        rw [pBool_iff] at h
        obtain ⟨t, h, rfl⟩ := h
        exact ⟨_, .secureHandshakes h, by simp⟩
      · cases h
    · split at h
      · rename_i hk; rw [pStr_iff] at hk; subst hk
        split at h
        · rename_i hk; rw [eat_iff] at hk; subst hk
          rw [map_iff] at h
          obtain ⟨b, h, rfl⟩ := h
          rw [pStr_iff] at h
          subst h
          exact ⟨_, .cipher _ _, rfl⟩
        · cases h
      · cases h
    · split at h
      · rename_i hk; rw [pStr_iff] at hk; subst hk
        split at h
        · rename_i hk; rw [eat_iff] at hk; subst hk
          rw [map_iff] at h
          obtain ⟨b, h, rfl⟩ := h
          rw [pStr_iff] at h
          subst h
          exact ⟨_, .mac _ _, rfl⟩
        · cases h
      · cases h
    · split at h
      · rename_i hk; rw [eat_iff] at hk; subst hk
        rw [map_iff] at h
        obtain ⟨b, h, rfl⟩ := h
        rw [pLevel_iff] at h
        obtain ⟨t, h, rfl⟩ := h
        exact ⟨_, .logLevel h, by simp⟩
      · split at h
        · rename_i hk; rw [eat_iff] at hk; subst hk
          split at h
          · rename_i hk; rw [eat_iff] at hk; subst hk
            rw [map_iff] at h
            obtain ⟨b, h, rfl⟩ := h
            obtain ⟨t, hl, rfl⟩ := pMaybeLevel_sound h
            exact ⟨_, .logStderr hl, by simp⟩
          · split at h
            · rename_i hk; rw [eat_iff] at hk; subst hk
              split at h
              · rename_i hk
                obtain ⟨ta, ha, rfl⟩ := pMaybeAs_sound hk
                rw [map_iff] at h
                obtain ⟨b, h, rfl⟩ := h
                obtain ⟨t, hl, rfl⟩ := pMaybeLevel_sound h
                cases ha with
                | some s => exact ⟨_, .logSyslogAs s hl, by simp⟩
                | none => exact ⟨_, .logSyslog hl, by simp⟩
              · cases h
            · cases h
        · cases h
    · split at h
      · rename_i hk; rw [eat_iff] at hk; subst hk
        split at h
        · rename_i hk; rw [eat_iff] at hk; subst hk
          rw [map_iff] at h
          obtain ⟨b, h, rfl⟩ := h
          rw [pBool_iff] at h
          obtain ⟨t, h, rfl⟩ := h
          exact ⟨_, .hideIp h, by simp⟩
        · cases h
      · split at h
        · rename_i hk; rw [eat_iff] at hk; subst hk
          split at h
          · rename_i hk; rw [eat_iff] at hk; subst hk
            rw [map_iff] at h
            obtain ⟨b, h, rfl⟩ := h
            rw [pBool_iff] at h
            obtain ⟨t, h, rfl⟩ := h
            exact ⟨_, .hideMac h, by simp⟩
          · cases h
        · cases h
    · rw [map_iff] at h
      obtain ⟨b, h, rfl⟩ := h
      rw [pStr_iff] at h
      subst h
      exact ⟨_, .interface _, rfl⟩
    · split at h
      · rw [Option.map_eq_some_iff] at h
        obtain ⟨⟨p, r'⟩, h, he⟩ := h
        simp only [Prod.mk.injEq] at he
        obtain ⟨rfl, he⟩ := he
        obtain ⟨tp, hp, rfl⟩ := pMaybePort_sound h
        obtain ⟨td, hd, hr⟩ := pMaybeDefault_sound r'
        refine ⟨_, .bindScoped hp hd, ?_⟩
        rw [he] at hr
        rw [hr]
        simp
      · split at h
        · rename_i hk
          rw [pBindAddr_iff] at hk
          obtain ⟨ta, ha, rfl⟩ := hk
          split at h
          · rename_i hk
            obtain ⟨tp, hp, rfl⟩ := pMaybePort_sound hk
            rw [Option.map_eq_some_iff] at h
            obtain ⟨⟨p, r'⟩, h, he⟩ := h
            simp only [Prod.mk.injEq] at he
            obtain ⟨rfl, he⟩ := he
            obtain ⟨ti, hi, rfl⟩ := pMaybeIface_sound h
            obtain ⟨td, hd, hr⟩ := pMaybeDefault_sound r'
            refine ⟨_, .bind ha hp hi hd, ?_⟩
            rw [he] at hr
            rw [hr]
            simp
          · cases h
        · cases h
    · split at h
      · rename_i hk; rw [eat_iff] at hk; subst hk
        rw [map_iff] at h
        obtain ⟨b, h, rfl⟩ := h
        rw [pUint_iff] at h
        subst h
        exact ⟨_, .packetMark _, rfl⟩
      · cases h
    · rw [map_iff] at h
      obtain ⟨b, h, rfl⟩ := h
      rw [pUint_iff] at h
      subst h
      exact ⟨_, .mtu _, rfl⟩
    · rw [map_iff] at h
      obtain ⟨b, h, rfl⟩ := h
      rw [pAuto_iff] at h
      obtain ⟨t, h, rfl⟩ := h
      exact ⟨_, .pmtu h, by simp⟩
    · rw [map_iff] at h
      obtain ⟨b, h, rfl⟩ := h
      rw [pMode_iff] at h
      obtain ⟨t, h, rfl⟩ := h
      exact ⟨_, .mode h, by simp⟩
    · split at h
      · rename_i hk; rw [eat_iff] at hk; subst hk
        rw [map_iff] at h
        obtain ⟨b, h, rfl⟩ := h
        rw [pBool_iff] at h
        obtain ⟨t, h, rfl⟩ := h
        exact ⟨_, .persist h, by simp⟩
      · cases h
    · split at h
      · rename_i hk; rw [eat_iff] at hk; subst hk
        rw [map_iff] at h
        obtain ⟨b, h, rfl⟩ := h
        rw [pBool_iff] at h
        obtain ⟨t, h, rfl⟩ := h
        exact ⟨_, .offload h, by simp⟩
      · cases h
    · rw [map_iff] at h
      obtain ⟨b, h, rfl⟩ := h
      rw [pStr_iff] at h
      subst h
      exact ⟨_, .protocol _, rfl⟩
    · rw [map_iff] at h
      obtain ⟨b, h, rfl⟩ := h
      rw [pStr_iff] at h
      subst h
      exact ⟨_, .secret _, rfl⟩
    · split at h
      · rename_i hk; rw [eat_iff] at hk; subst hk
        rw [map_iff] at h
        obtain ⟨b, h, rfl⟩ := h
        rw [pStr_iff] at h
        subst h
        exact ⟨_, .preUp _, rfl⟩
      · split at h
        · rename_i hk; rw [eat_iff] at hk; subst hk
          rw [map_iff] at h
          obtain ⟨b, h, rfl⟩ := h
          rw [pStr_iff] at h
          subst h
          exact ⟨_, .postDown _, rfl⟩
        · cases h
    · split at h
      · rename_i hk; rw [eat_iff] at hk; subst hk
        rw [map_iff] at h
        obtain ⟨b, h, rfl⟩ := h
        rw [pStr_iff] at h
        subst h
        exact ⟨_, .statusSocket _, rfl⟩
      · cases h
    · rw [map_iff] at h
      obtain ⟨b, h, rfl⟩ := h
      rw [pBool_iff] at h
      obtain ⟨t, h, rfl⟩ := h
      exact ⟨_, .forward h, by simp⟩
    · cases h
  · cases h

theorem pSimple_complete {s t} (r) (h : DSimple s t) : pSimple (t ++ r) = some (s, r) := by
  have bool : ∀ {b t} (r : List T), DBool b t → pBool (t ++ r) = some (b, r) := fun r h => pBool_iff.2 ⟨_, h, rfl⟩
  unfold pSimple
  rw [semi_iff]
  cases h with
  | dropCaps h => have := fun r => (pDropCaps_iff (r := r)).2 ⟨_, h, rfl⟩; simp [pSBody, eat, this]
  | logLevel h => have := fun r => (pLevel_iff (r := r)).2 ⟨_, h, rfl⟩; simp [pSBody, eat, this]
  | mode h => have := fun r => (pMode_iff (r := r)).2 ⟨_, h, rfl⟩; simp [pSBody, this]
  | pmtu h => have := fun r => (pAuto_iff (r := r)).2 ⟨_, h, rfl⟩; simp [pSBody, this]
  | secureHandshakes h => simp [pSBody, eat, bool _ h]
  | hideIp h => simp [pSBody, eat, bool _ h]
  | hideMac h => simp [pSBody, eat, bool _ h]
  | persist h => simp [pSBody, eat, bool _ h]
  | offload h => simp [pSBody, eat, bool _ h]
  | forward h => simp [pSBody, bool _ h]
  | logStderr h => have := pMaybeLevel_complete (r := .semi :: r) h rfl; simp [pSBody, eat, this]
  | @logSyslog l t h =>
    have := pMaybeLevel_complete (r := .semi :: r) h rfl
    have h2 := pMaybeAs_complete (r := t ++ .semi :: r) .none (by cases h <;> rfl)
    simp only [List.nil_append] at h2
    simp [pSBody, eat, this, h2]
  | logSyslogAs s h =>
    have := pMaybeLevel_complete (r := .semi :: r) h rfl
    simp [pSBody, eat, this, pMaybeAs, pStr]
  | @bind a p i d ta tp ti td ha hp hi hd =>
    have h1 := pMaybeDefault_complete (r := r) hd
    have h2 := pMaybeIface_complete (r := td ++ .semi :: r) hi (by cases hd <;> rfl)
    have h3 := pMaybePort_complete (r := ti ++ (td ++ .semi :: r)) hp (by cases hi <;> cases hd <;> rfl) (by cases hi <;> cases hd <;> rfl)
    cases ha <;> simp [pSBody, pBindAddr, h3, h2, h1]
  | @bindScoped a i p d tp td hp hd =>
    have h1 := pMaybeDefault_complete (r := r) hd
    have h3 := pMaybePort_complete (r := td ++ .semi :: r) hp (by cases hd <;> rfl) (by cases hd <;> rfl)
    simp [pSBody, h3, h1]
  | _ => simp [pSBody, eat, pStr, pUint]

theorem DSimple.head {s t} (h : DSimple s t) (r n) : (∃ k t', t = .kw k :: t') ∧ eatGroup (t ++ r) = none ∧ pGLeaf n (t ++ r) = none := by
  cases h <;> exact ⟨⟨_, _, rfl⟩, by simp [eatGroup, eat], by simp [pGLeaf, pKw, evOf]⟩

theorem pConf_sound {n ts ss} (h : pConf n ts = some ss) : DConf ss ts := by
  induction n generalizing ts ss with
  | zero => cases h
  | succ n ih =>
    unfold pConf at h
    split at h
    · rename_i hs; subst hs; simp at h; subst h; exact .nil
    · split at h
      · rename_i hk; rw [eatGroup_iff] at hk; subst hk
        split at h
        · rename_i name _ hk; rw [pStr_iff] at hk; subst hk
          split at h
          · rename_i hb
            rw [block_iff] at hb
            obtain ⟨r₁, rfl, hb⟩ := hb
            obtain ⟨_, t, hd, rfl⟩ := pGConf_sound hb
            rw [Option.map_eq_some_iff] at h
            obtain ⟨ss, h, rfl⟩ := h
            have := DConf.g (.group (name := name) hd) (ih h)
            simpa using this
          · cases h
        · cases h
      · split at h
        · rename_i s r' hp
          rw [Option.map_eq_some_iff] at h
          obtain ⟨ss, h, rfl⟩ := h
          obtain ⟨t', hd', rfl⟩ := pGLeaf_sound hp
          exact .g (.leaf hd') (ih h)
        · split at h
          · rename_i hp
            rw [Option.map_eq_some_iff] at h
            obtain ⟨ss, h, rfl⟩ := h
            obtain ⟨t', hd', rfl⟩ := pSimple_sound hp
            exact .simple hd' (ih h)
          · cases h

theorem pConf_complete {n ss t} (h : DConf ss t) (hn : t.length < n) : pConf n t = some ss := by
  induction n generalizing ss t with
  | zero => omega
  | succ n ih =>
    cases h with
    | nil => rfl
    | @simple s ss t ts hd hc =>
      obtain ⟨⟨k, t', rfl⟩, hg, hl⟩ := hd.head ts n
      unfold pConf
      rw [if_neg (by simp), hg]
      simp only
      rw [hl, pSimple_complete _ hd]
      simp only
      rw [ih hc (by simp at hn; omega)]
      rfl
    | @g s ss t ts hd hc =>
      cases hd with
      | leaf hd =>
        obtain ⟨⟨k, t', rfl⟩, hg⟩ := hd.head ts
        unfold pConf
        rw [if_neg (by simp), hg]
        simp only
        rw [pGLeaf_complete _ hd (by simp at hn ⊢; omega)]
        simp only
        rw [ih hc (by simp at hn; omega)]
        rfl
      | @group name body t hb =>
        unfold pConf
        have h1 : pGConf n (t ++ .rbrace :: ts) = some (body, .rbrace :: ts) := pGConf_complete hb (.inr rfl) (by simp at hn; omega)
        have h2 : block (pGConf n) (.lbrace :: (t ++ .rbrace :: ts)) = some (body, ts) := block_iff.2 ⟨_, rfl, h1⟩
        have h3 := ih hc (by simp at hn; omega)
        simp [eatGroup, eat, pStr, h2, h3]

/-! ## The three kinds of files -/

/-- The statements of a configuration file (`START_CONFIG`, src/config.y:153) -/
def parseConf (ts : List T) : Option (List Stmt) := pConf (ts.length + 1) ts

/-- The statements of a file included in a peer group (`START_PEER_GROUP_CONFIG`, src/config.y:154) -/
def parseGroup (ts : List T) : Option (List GStmt) :=
  match pGConf (ts.length + 1) ts with
  | some (ss, []) => some ss
  | _ => none

/-- The statements of a peer file (`START_PEER_CONFIG`, src/config.y:155) -/
def parsePeer (ts : List T) : Option (List PStmt) :=
  match pPConf (ts.length + 1) ts with
  | some (ss, []) => some ss
  | _ => none

theorem parseConf_iff {ts ss} : parseConf ts = some ss ↔ DConf ss ts :=
  ⟨pConf_sound, fun h => pConf_complete h (Nat.lt_succ_self _)⟩

theorem parseGroup_iff {ts ss} : parseGroup ts = some ss ↔ DGConf ss ts := by
  unfold parseGroup
  constructor
  · intro h
    split at h
    · rename_i hp; simp at h; subst h; obtain ⟨_, t, hd, rfl⟩ := pGConf_sound hp; simpa using hd
    · cases h
  · intro h
    have := pGConf_complete (r := []) h (.inl rfl) (Nat.lt_succ_self _)
    simp only [List.append_nil] at this
    simp [this]

theorem parsePeer_iff {ts ss} : parsePeer ts = some ss ↔ DPConf ss ts := by
  unfold parsePeer
  constructor
  · intro h
    split at h
    · rename_i hp; simp at h; subst h; obtain ⟨_, t, hd, rfl⟩ := pPConf_sound hp; simpa using hd
    · cases h
  · intro h
    have := pPConf_complete (r := []) h (.inl rfl) (Nat.lt_succ_self _)
    simp only [List.append_nil] at this
    simp [this]

end Fastd.Config.Gram
