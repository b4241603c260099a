import Verif.Net.SocketLemmas
import Verif.Props.Caps

/-!
# C89: sockets
-/

namespace Fastd.Net

open Fastd.Config.Exec (Bind isV6LinkLocal notV6)
open Fastd.Daemon (Addr)

/-- Opening a socket for an address either yields a new descriptor with a socket of the right family, bound to just this address and set up as
configured, or nothing is left open. -/
theorem C89_bind (sys : Sys) (b : Bind) (early : Bool) (k : K) :
    (∃ fd s k', bindSocket sys b early k = (some (some fd), k') ∧ Opened k.fds fd s k'.fds ∧ IsSet sys b s) ∨
    (∃ k', bindSocket sys b early k = (some none, k') ∧ k'.fds = k.fds) ∨
    (∃ k', bindSocket sys b early k = (none, k') ∧ notV6 b.addr = true) := by
  have h := bindSocket_done sys b early k
  cases e : bindSocket sys b early k with
  | mk r k' =>
    rw [e] at h
    match r, h with
    | none, h => exact .inr (.inr ⟨k', rfl, h⟩)
    | some none, h => exact .inr (.inl ⟨k', rfl, h⟩)
    | some (some fd), ⟨s, h1, h2⟩ => exact .inl ⟨fd, s, k', rfl, h1, h2⟩

/-- The address `any` means IPv4 and IPv6, as long as there are IPv6 sockets at all. -/
theorem C89_any {sys : Sys} {b : Bind} {port : UInt16} (hb : b.addr = .unspec port) {early : Bool} {k k' : K} {fd : Nat} {s : Sk}
    (h : bindSocket sys b early k = (some (some fd), k')) (hs : k'.fds fd = some s) {n : Nat} (ht : sys.tape k.pos = some n) (hn : k.fds n = none) :
    fd = n ∧ s.family = .inet6 ∧ s.v6only = false := by
  have e1 : socket sys .inet6 k = (some (some n), { fds := fun m => if m = n then some { family := .inet6 } else k.fds m, pos := k.pos + 1 }) := by
    unfold socket
    simp only [ht, hn]
  have h0 : Opened k.fds n { family := .inet6 } (fun m => if m = n then some ({ family := .inet6 } : Sk) else k.fds m) := ⟨hn, rfl⟩
  have key : Post k.fds (fun s => s.family = .inet6 ∧ s.v6only = false) n (bindSocket sys b early k) := by
    unfold bindSocket
    rw [hb]
    show Post _ _ _ ((socket sys .inet6 >>= fun fd => _) k)
    rw [bind_eq, e1]
    refine opt_post h0 fun k1 s1 hs1 h1 => setup_post h1 (by rw [hs1]; rfl) (by rw [hs1]; rfl) (by rw [hs1]; rfl) ?_
    intro s' a _ _ g1 g2 _ _ _ _ _ _
    exact ⟨by rw [g1, hs1]; rfl, by rw [g2, hs1]; rfl⟩
  rw [h] at key
  obtain ⟨rfl, s', ho, hg⟩ := key
  rw [ho.2] at hs
  simp only [if_true, Option.some.injEq] at hs
  subst hs
  exact ⟨rfl, hg⟩

/-- Descriptors found for a list of addresses: `AllSet sys bs fds f0 f1` if every address without a random port has got its own new descriptor with a
socket set up for it, and nothing else has changed. -/
inductive AllSet (sys : Sys) : List (Option Bind) → List (Option Nat) → (Nat → Option Sk) → (Nat → Option Sk) → Prop
  | nil {f : Nat → Option Sk} : AllSet sys [] [] f f
  | dynamic {bs : List (Option Bind)} {fds : List (Option Nat)} {f f' : Nat → Option Sk} (h : AllSet sys bs fds f f') :
      AllSet sys (none :: bs) (none :: fds) f f'
  | fixed {b : Bind} {bs : List (Option Bind)} {fd : Nat} {fds : List (Option Nat)} {f f1 f' : Nat → Option Sk} {s : Sk} (ho : Opened f fd s f1)
      (hs : IsSet sys b s) (h : AllSet sys bs fds f1 f') : AllSet sys (some b :: bs) (some fd :: fds) f f'

theorem bindAll_ok (sys : Sys) (bs : List (Option Bind)) : ∀ {k k' : K} {fds : List (Option Nat)}, bindAll sys bs k = (some fds, k') →
    AllSet sys bs fds k.fds k'.fds := by
  induction bs with
  | nil => intro k k' fds h; cases h; exact .nil
  | cons o bs ih =>
    intro k k' fds h
    cases o with
    | none =>
      unfold bindAll at h
      rw [bind_eq] at h
      cases e : bindAll sys bs k with
      | mk r k1 =>
        rw [e] at h
        cases r with
        | none => cases h
        | some l => cases h; exact .dynamic (ih e)
    | some b =>
      unfold bindAll at h
      rw [bind_eq] at h
      have hd := bindSocket_done sys b false k
      cases e : bindSocket sys b false k with
      | mk r k1 =>
        rw [e] at h hd
        match r, hd with
        | none, _ => cases h
        | some none, _ => cases h
        | some (some fd), ⟨s, ho, hs⟩ =>
          simp only at h
          rw [bind_eq] at h
          cases e2 : getsockname sys k1 with
          | mk r2 k2 =>
            rw [e2] at h
            have hk2 : k2.fds = k1.fds := by
              unfold getsockname at e2
              cases ht : sys.tape k1.pos <;> rw [ht] at e2 <;> cases e2 <;> rfl
            cases r2 with
            | none => cases h
            | some u =>
              simp only at h
              rw [bind_eq] at h
              cases e3 : bindAll sys bs k2 with
              | mk r3 k3 =>
                rw [e3] at h
                cases r3 with
                | none => cases h
                | some l =>
                  cases h
                  have := ih e3
                  rw [hk2] at this
                  exact .fixed ho hs this

theorem AllSet.old {sys : Sys} {bs : List (Option Bind)} {fds : List (Option Nat)} {f f' : Nat → Option Sk} (h : AllSet sys bs fds f f') :
    ∀ n s, f n = some s → f' n = some s := by
  induction h with
  | nil => exact fun _ _ h => h
  | dynamic _ ih => exact ih
  | @fixed _ _ fd _ f _ _ s ho _ _ ih =>
    intro n t hn
    refine ih n t ?_
    rw [ho.2]
    by_cases e : n = fd
    · subst e; rw [ho.1] at hn; cases hn
    · simp [e, hn]

theorem AllSet.new {sys : Sys} {bs : List (Option Bind)} {fds : List (Option Nat)} {f f' : Nat → Option Sk} (h : AllSet sys bs fds f f') :
    fds.length = bs.length ∧ (∀ (i : Nat) fd, fds[i]? = some (some fd) → f fd = none ∧ ∃ b s, bs[i]? = some (some b) ∧ f' fd = some s ∧ IsSet sys b s) ∧
    (∀ (i : Nat) b, bs[i]? = some (some b) → ∃ fd, fds[i]? = some (some fd)) ∧
    (∀ (i j : Nat) fd, fds[i]? = some (some fd) → fds[j]? = some (some fd) → i = j) ∧ (∀ n, f n = none → (∀ i : Nat, fds[i]? ≠ some (some n)) → f' n = none) := by
  induction h with
  | nil => simp
  | @dynamic bs fds f f' h ih =>
    obtain ⟨h1, h2, h3, h4, h5⟩ := ih
    refine ⟨by simp [h1], fun i fd hi => ?_, fun i b hi => ?_, fun i j fd hi hj => ?_, fun n hn hf => ?_⟩
    · cases i with
      | zero => simp at hi
      | succ i => exact h2 i fd (by simpa using hi)
    · cases i with
      | zero => simp at hi
      | succ i => exact h3 i b (by simpa using hi)
    · cases i with
      | zero => simp at hi
      | succ i =>
        cases j with
        | zero => simp at hj
        | succ j => rw [h4 i j fd (by simpa using hi) (by simpa using hj)]
    · exact h5 n hn fun i hi => hf (i + 1) (by simpa using hi)
  | @fixed b bs fd fds f f1 f' s ho hs h ih =>
    obtain ⟨h1, h2, h3, h4, h5⟩ := ih
    have hfd : f1 fd = some s := by rw [ho.2]; simp
    have hne : ∀ i : Nat, fds[i]? ≠ some (some fd) := fun i hi => by
      have := (h2 i fd hi).1
      rw [hfd] at this; cases this
    refine ⟨by simp [h1], fun i fd' hi => ?_, fun i b hi => ?_, fun i j fd' hi hj => ?_, fun n hn hf => ?_⟩
    · cases i with
      | zero => simp at hi; subst hi; exact ⟨ho.1, b, s, rfl, h.old _ _ hfd, hs⟩
      | succ i =>
        have hi' : fds[i]? = some (some fd') := by simpa using hi
        obtain ⟨g1, g2⟩ := h2 i fd' hi'
        refine ⟨?_, by simpa using g2⟩
        rw [ho.2] at g1
        by_cases e : fd' = fd
        · subst e; exact absurd hi' (hne i)
        · simpa [e] using g1
    · cases i with
      | zero => exact ⟨fd, rfl⟩
      | succ i => simpa using h3 i b (by simpa using hi)
    · cases i with
      | zero =>
        simp at hi; subst hi
        cases j with
        | zero => rfl
        | succ j => exact absurd (by simpa using hj) (hne j)
      | succ i =>
        cases j with
        | zero => simp at hj; subst hj; exact absurd (by simpa using hi) (hne i)
        | succ j => rw [h4 i j fd' (by simpa using hi) (by simpa using hj)]
    · refine h5 n ?_ fun i hi => hf (i + 1) (by simpa using hi)
      rw [ho.2]
      by_cases e : n = fd
      · subst e; exact absurd rfl (hf 0)
      · simp [e, hn]

/-- If fastd starts, then every configured address without a random port has got a socket of its own, set up for it; no other descriptor has been
touched or left open. -/
theorem C89_all {sys : Sys} {bs : List (Option Bind)} {k k' : K} {fds : List (Option Nat)} (h : bindAll sys bs k = (some fds, k')) :
    fds.length = bs.length ∧
    (∀ (i : Nat) b, bs[i]? = some (some b) → ∃ fd s, fds[i]? = some (some fd) ∧ k.fds fd = none ∧ k'.fds fd = some s ∧ IsSet sys b s) ∧
    (∀ i : Nat, bs[i]? = some none → fds[i]? = some none) ∧
    (∀ (i j : Nat) fd, fds[i]? = some (some fd) → fds[j]? = some (some fd) → i = j) ∧
    (∀ n, (∀ i : Nat, fds[i]? ≠ some (some n)) → k'.fds n = k.fds n) := by
  have ha := bindAll_ok sys bs h
  obtain ⟨h1, h2, h3, h4, h5⟩ := ha.new
  refine ⟨h1, fun i b hb => ?_, fun i hi => ?_, h4, fun n hn => ?_⟩
  · obtain ⟨fd, hf⟩ := h3 i b hb
    obtain ⟨g1, b', s, g2, g3, g4⟩ := h2 i fd hf
    rw [hb] at g2
    cases g2
    exact ⟨fd, s, hf, g1, g3, g4⟩
  · have hlt : i < fds.length := by rw [h1]; exact (List.getElem?_eq_some_iff.1 hi).1
    cases e : fds[i]? with
    | none => rw [List.getElem?_eq_none_iff] at e; omega
    | some o =>
      cases o with
      | none => rfl
      | some fd =>
        obtain ⟨_, b', s, g2, _⟩ := h2 i fd e
        rw [hi] at g2; cases g2
  · cases e : k.fds n with
    | none => exact h5 n e hn
    | some s => exact ha.old n s e

theorem getsockname_fds {sys : Sys} {k k' : K} {r : Option Unit} (h : getsockname sys k = (r, k')) : k'.fds = k.fds := by
  unfold getsockname at h
  cases ht : sys.tape k.pos <;> rw [ht] at h <;> cases h <;> rfl

theorem openDynamic_some {sys : Sys} {b : Bind} {early : Bool} {k k' : K} {fd : Nat} (h : openDynamic sys b early k = (some (some fd), k')) :
    ∃ s, Opened k.fds fd s k'.fds ∧ IsSet sys b s := by
  unfold openDynamic at h
  rw [bind_eq] at h
  have hd := bindSocket_done sys b early k
  cases e : bindSocket sys b early k with
  | mk r k1 =>
    rw [e] at h hd
    match r, hd with
    | none, _ => cases h
    | some none, _ => cases h
    | some (some fd), hd =>
      simp only at h
      rw [bind_eq] at h
      cases e2 : getsockname sys k1 with
      | mk r2 k2 =>
        rw [e2] at h
        cases r2 with
        | none => cases h
        | some u =>
          cases h
          rw [getsockname_fds e2]
          exact hd

theorem openDynamic_none {sys : Sys} {b : Bind} {early : Bool} {k k' : K} (h : openDynamic sys b early k = (some none, k')) : k'.fds = k.fds := by
  unfold openDynamic at h
  rw [bind_eq] at h
  have hd := bindSocket_done sys b early k
  cases e : bindSocket sys b early k with
  | mk r k1 =>
    rw [e] at h hd
    match r, hd with
    | none, _ => cases h
    | some none, hd => cases h; exact hd
    | some (some fd), hd =>
      simp only at h
      rw [bind_eq] at h
      cases e2 : getsockname sys k1 with
      | mk r2 k2 => rw [e2] at h; cases r2 <;> cases h

/-- Opening an IPv4 socket for a peer may end the whole process: a failure of `socket`, e.g. because all descriptors are in use, isn't handled. -/
theorem C89_exit_false (sys : Sys) (b : Bind) (early : Bool) {ip : Vector UInt8 4} {port : UInt16} (hb : b.addr = .v4 ip port) (k : K)
    (h : sys.tape k.pos = none) : (openDynamic sys b early k).1 = none := by
  have e : (bindSocket sys b early k) = (none, { k with pos := k.pos + 1 }) := by
    unfold bindSocket
    rw [hb]
    show (socket sys .inet >>= fun fd => _) k = _
    rw [bind_eq]
    have : socket sys .inet k = (some none, { k with pos := k.pos + 1 }) := by unfold socket; rw [h]
    rw [this]
    rfl
  unfold openDynamic
  rw [bind_eq, e]

/-- For an IPv6 address, the process goes on whatever the system calls for setting up the socket return. -/
theorem C89_exit_partial (sys : Sys) (b : Bind) (early : Bool) (hb : notV6 b.addr = false) (k : K) :
    (bindSocket sys b early k).1 ≠ none := by
  rcases C89_bind sys b early k with ⟨fd, s, k', e, _⟩ | ⟨k', e, _⟩ | ⟨k', e, h⟩
  · rw [e]; exact fun h => by cases h
  · rw [e]; exact fun h => by cases h
  · rw [hb] at h; cases h

section Open

open Fastd.Config.Spec Fastd.Config.Gram Fastd.Config.Opt Fastd.Config.Start
open Fastd.Config.Exec (notV4)

variable {D : Type} {env : SEnv D}

/-- The families a socket can send to -/
def Sk.reaches (s : Sk) (v6 : Bool) : Prop := if v6 then s.family = .inet6 else s.family = .inet ∨ s.v6only = false

/-- The socket opened for a peer with a random port. It is bound to the address for outgoing connections of the peer's family, or to any address if no
addresses are configured, and it can send to the family of the peer; but not if the configured address is `any` and there was no IPv6 socket. There
is none if and only if the configured addresses cannot be used for the family, or if the system refused. -/
theorem C89_open (hsn : Sane env.toEnv) (hu : env.cmdUser = true → env.useUser = true) {args : List Bytes} (hf : FineArgs args) {d : D} {r : Ready D}
    (hr : Config.Start.start env d args = .running r) {as its next} (ha : Accepted env.toOEnv d args as its next) (sys : Sys) (v6 : Bool) {k k' : K}
    {o : Option Nat} (h : socketOpen sys r.st.conf v6 k = (some o, k')) :
    (∀ fd, o = some fd → ∃ s b, Opened k.fds fd s k'.fds ∧ IsSet sys b s ∧
      (Outgoing env.toEnv its v6 b ∨ binds env.toEnv its = [] ∧ b.addr = (if v6 then .v6 (.replicate 16 0) 0 0 0 else .v4 (.replicate 4 0) 0) ∧ b.bindtodev = none) ∧
      (s.reaches v6 ∨ v6 = true ∧ ∃ port, b.addr = .unspec port ∧ s.bound = some (.v4 (.replicate 4 0) port))) ∧
    (o = none → k'.fds = k.fds) ∧
    ((∀ b ∈ binds env.toEnv its, (if v6 then notV4 b.addr else notV6 b.addr) = false) → binds env.toEnv its ≠ [] → o = none) := by
  have hfacts := facts hsn hu hf hr ha
  -- the address
  have haddr : (∀ b, Config.Caps.socketOpen r.st.conf v6 = some b →
      (Outgoing env.toEnv its v6 b ∨ binds env.toEnv its = [] ∧ b.addr = (if v6 then .v6 (.replicate 16 0) 0 0 0 else .v4 (.replicate 4 0) 0) ∧ b.bindtodev = none) ∧
      (if v6 then notV4 b.addr else notV6 b.addr) = true) ∧
      ((∀ b ∈ binds env.toEnv its, (if v6 then notV4 b.addr else notV6 b.addr) = false) → binds env.toEnv its ≠ [] → Config.Caps.socketOpen r.st.conf v6 = none) := by
    have hout : ∀ v b, Outgoing env.toEnv its v b → (if v then notV4 b.addr else notV6 b.addr) = true := by
      rintro v b ⟨n, hn, hd⟩
      cases v with
      | true =>
        obtain ⟨b', hb', hu', _⟩ := (by simpa using hd : IsDefault (fun b => notV4 b.addr) (·.default6) _ (some n))
        rw [hn] at hb'; cases hb'; exact hu'
      | false =>
        obtain ⟨b', hb', hu', _⟩ := (by simpa using hd : IsDefault (fun b => notV6 b.addr) (·.default4) _ (some n))
        rw [hn] at hb'; cases hb'; exact hu'
    have hnone : ∀ v, Config.Caps.defaultAddr r.st.conf v = none → ∀ b ∈ binds env.toEnv its, (if v then notV4 b.addr else notV6 b.addr) = false := by
      intro v hv b hb
      unfold Config.Caps.defaultAddr at hv
      have key : ∀ {usable marked : Bind → Bool} {o : Option Nat}, IsDefault usable marked (binds env.toEnv its) o →
          (match o with | some n => r.st.conf.bindAddrs.reverse[n]? | none => none) = none → usable b = false := by
        intro usable marked o hd ho
        cases o with
        | none => exact hd b hb
        | some n =>
          obtain ⟨c, hc, _⟩ := hd
          simp only [hfacts.binds] at ho
          rw [ho] at hc; cases hc
      cases v with
      | true => exact key hfacts.default6 hv
      | false => exact key hfacts.default4 hv
    have hdis : ∀ b : Bind, notV4 b.addr = false → notV6 b.addr = false → False := by
      intro b h1 h2
      cases hb : b.addr <;> simp [hb, notV4, notV6] at h1 h2
    have z4 : Config.Exec.vec4 [] = Vector.replicate 4 0 := by decide
    have z6 : Config.Exec.vec16 [] = Vector.replicate 16 0 := by decide
    constructor
    · intro b hb
      unfold Config.Caps.socketOpen at hb
      cases hd : Config.Caps.defaultAddr r.st.conf v6 with
      | some b' =>
        rw [hd] at hb
        cases hb
        have := defaultAddr_iff hfacts hd
        exact ⟨.inl this, hout v6 b this⟩
      | none =>
        rw [hd] at hb
        simp only at hb
        by_cases hc : (Config.Caps.defaultAddr r.st.conf true).isNone ∧ (Config.Caps.defaultAddr r.st.conf false).isNone
        · rw [if_pos hc] at hb
          cases hb
          refine ⟨.inr ⟨?_, ?_, rfl⟩, ?_⟩
          · have h4 := hnone false (Option.isNone_iff_eq_none.1 hc.2)
            have h6 := hnone true (Option.isNone_iff_eq_none.1 hc.1)
            cases hbs : binds env.toEnv its with
            | nil => rfl
            | cons b l =>
              rw [hbs] at h4 h6
              exact (hdis b (by simpa using h6 b (by simp)) (by simpa using h4 b (by simp))).elim
          · rw [z4, z6]
          · cases v6 <;> rfl
        · rw [if_neg hc] at hb; cases hb
    · intro hn hne
      unfold Config.Caps.socketOpen
      cases hd : Config.Caps.defaultAddr r.st.conf v6 with
      | some b' =>
        have := defaultAddr_iff hfacts hd
        have h1 := hout v6 b' this
        rw [hn b' (mem_binds this)] at h1; cases h1
      | none =>
        simp only
        rw [if_neg]
        rintro ⟨h6, h4⟩
        have h4 := hnone false (Option.isNone_iff_eq_none.1 h4)
        have h6 := hnone true (Option.isNone_iff_eq_none.1 h6)
        cases hbs : binds env.toEnv its with
        | nil => exact hne hbs
        | cons b l =>
          rw [hbs] at h4 h6
          exact (hdis b (by simpa using h6 b (by simp)) (by simpa using h4 b (by simp))).elim
  unfold socketOpen at h
  refine ⟨?_, ?_, fun h1 h2 => ?_⟩
  · rintro fd rfl
    cases hb : Config.Caps.socketOpen r.st.conf v6 with
    | none => rw [hb] at h; cases h
    | some b =>
      rw [hb] at h
      obtain ⟨hb1, hb2⟩ := haddr.1 b hb
      obtain ⟨s, ho, hs⟩ := openDynamic_some h
      refine ⟨s, b, ho, hs, hb1, ?_⟩
      unfold Sk.reaches
      cases v6 with
      | false =>
        rcases hs.bound with ⟨_, hf, _⟩ | ⟨ha, _, _, _, _⟩ | ⟨ha, _, _, _, _, _, _⟩ | ⟨_, _, h6, _⟩ | ⟨_, hf, _⟩
        · exact .inl (.inl hf)
        · rw [ha] at hb2; cases hb2
        · rw [ha] at hb2; cases hb2
        · exact .inl (.inr h6)
        · exact .inl (.inl hf)
      | true =>
        rcases hs.bound with ⟨ha, _, _⟩ | ⟨_, hf, _, _, _⟩ | ⟨_, hf, _, _, _, _, _⟩ | ⟨_, hf, _, _⟩ | ⟨ha, _, hbd⟩
        · rw [ha] at hb2; cases hb2
        · exact .inl hf
        · exact .inl hf
        · exact .inl hf
        · exact .inr ⟨rfl, _, ha, hbd⟩
  · rintro rfl
    cases hb : Config.Caps.socketOpen r.st.conf v6 with
    | none => rw [hb] at h; cases h; rfl
    | some b => rw [hb] at h; exact openDynamic_none h
  · rw [haddr.2 h1 h2] at h
    cases h; rfl

end Open

/-! ## Example -/

/-- Descriptors are handed out in order, starting with the position on the tape; `bad` calls fail. -/
def linux (bad : List Nat) (dev : UInt32) : Sys where
  usePktinfo := true
  useFreebind := true
  useBindToDevice := true
  usePmtu := true
  usePacketMark := true
  packetMark := 5
  offload := false
  ifIndex := fun d => if d = [0x65, 0x74, 0x68, 0x30] then dev else 0
  tape := fun n => if n ∈ bad then none else some n

def here (a : Addr) (dev : Option Bytes) : Bind := { addr := a, default4 := false, default6 := false, dynamic := false, bindtodev := dev }

def local6 : Vector UInt8 16 := #v[0xfe, 0x80, 0, 0, 0, 0, 0, 0, 0, 0, 0, 0, 0, 0, 0, 1]

def empty : K := { fds := fun _ => none, pos := 3 }

/-- Two addresses: a link-local one on `eth0`, and `any`, for which no IPv6 socket could be opened -/
def two : List (Option Bind) := [some (here (.v6 local6 10000 0 0) (some [0x65, 0x74, 0x68, 0x30])), none, some (here (.unspec 10001) none)]

example : (bindAll (linux [12] 2) two empty).1 = some [some 3, none, some 13] := by decide +kernel

example : ((bindAll (linux [12] 2) two empty).2.fds 3) = some { family := .inet6, v6only := true, pktinfo := true, pktinfo6 := true, freebind := true, noPmtu := true, mark := 5, bound := some (.v6 local6 10000 0 2) } := by decide +kernel

example : ((bindAll (linux [12] 2) two empty).2.fds 13) = some { family := .inet, pktinfo := true, freebind := true, noPmtu := true, mark := 5, bound := some (.v4 (.replicate 4 0) 10001) } := by decide +kernel

/-- If there is no such interface, fastd does not start. -/
example : (bindAll (linux [12] 0) two empty).1 = none := by decide +kernel

/-- The index of an interface is taken modulo 2³²: "4294967297" means interface 1. -/
example : scopeId (linux [] 2) [0x34, 0x32, 0x39, 0x34, 0x39, 0x36, 0x37, 0x32, 0x39, 0x37] = 1 := by decide +kernel

/-- The example of `C89_exit_false`: the process ends while opening a socket for a peer, as there are no addresses configured, and no descriptor is left. -/
example : (openDynamic (linux [3] 2) (here (.v4 (.replicate 4 0) 0) none) false empty).1 = none := by decide +kernel

end Fastd.Net
