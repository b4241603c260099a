import Verif.Spec.Socket

/-!
# Lemmas about setting up sockets
-/

namespace Fastd.Net

open Fastd.Config.Exec (Bind isV6LinkLocal)
open Fastd.Daemon (Addr)

theorem bind_eq {α β : Type} (m : M α) (f : α → M β) (k : K) :
    (m >>= f) k = match m k with | (some a, k') => f a k' | (none, k') => (none, k') := rfl

theorem pure_eq {α : Type} (a : α) (k : K) : (pure a : M α) k = (some a, k) := rfl

/-- All that may become of a socket that is being set up. -/
def Post (f0 : Nat → Option Sk) (G : Sk → Prop) (fd : Nat) : Option (Option Nat) × K → Prop
  | (none, _) => False
  | (some none, k) => k.fds = f0
  | (some (some fd'), k) => fd' = fd ∧ ∃ s, Opened f0 fd s k.fds ∧ G s

theorem call_eq {sys : Sys} {f0 : Nat → Option Sk} {fd : Nat} {s : Sk} {k : K} (h : Opened f0 fd s k.fds) (f : Sk → Sk) :
    ∃ b k', call sys fd f k = (some b, k') ∧ Opened f0 fd (if b then f s else s) k'.fds := by
  unfold call
  cases sys.tape k.pos with
  | none => exact ⟨false, _, rfl, h⟩
  | some _ =>
    refine ⟨true, _, rfl, h.1, ?_⟩
    funext n
    simp only [h.2]
    by_cases hn : n = fd <;> simp [hn]

theorem failed_post {f0 : Nat → Option Sk} {G : Sk → Prop} {fd : Nat} {s : Sk} {k : K} (h : Opened f0 fd s k.fds) :
    Post f0 G fd (failed fd k) := by
  show (fun n => if n = fd then none else k.fds n) = f0
  funext n
  simp only [h.2]
  by_cases hn : n = fd
  · simp [hn, h.1]
  · simp [hn]

theorem opt_post {sys : Sys} {f0 : Nat → Option Sk} {G : Sk → Prop} {fd : Nat} {s : Sk} {k : K} (h : Opened f0 fd s k.fds) {cond : Bool}
    {f : Sk → Sk} {next : M (Option Nat)}
    (hn : ∀ k' s', s' = (if cond = true then f s else s) → Opened f0 fd s' k'.fds → Post f0 G fd (next k')) : Post f0 G fd (opt sys cond fd f next k) := by
  unfold opt
  cases cond with
  | false => exact hn k s rfl h
  | true =>
    obtain ⟨b, k', e, h'⟩ := call_eq (sys := sys) h f
    show Post f0 G fd ((call sys fd f >>= fun ok => if ok then next else failed fd) k)
    rw [bind_eq, e]
    cases b with
    | true => exact hn k' _ rfl h'
    | false => exact failed_post h'

theorem set_fields {sys : Sys} {b : Bind} {af : Family} {early : Bool} {a : Addr} {s s1 s2 s3 s4 s5 s6 s7 : Sk}
    (h1 : s1 = if decide (af = .inet6) = true then { s with pktinfo6 := true } else s)
    (h2 : s2 = if (sys.useBindToDevice && b.bindtodev.isSome && !isV6LinkLocal b.addr) = true then { s1 with device := b.bindtodev } else s1)
    (h3 : s3 = if sys.usePmtu = true then { s2 with noPmtu := true } else s2)
    (h4 : s4 = if (sys.usePacketMark && decide (sys.packetMark ≠ 0)) = true then { s3 with mark := sys.packetMark } else s3)
    (h5 : s5 = if (sys.offload && early) = true then { s4 with reuse := true } else s4)
    (h6 : s6 = if true = true then { s5 with bound := some a } else s5)
    (h7 : s7 = if (sys.offload && !early) = true then { s6 with reuse := true } else s6) :
    s7.bound = some a ∧ s7.family = s.family ∧ s7.v6only = s.v6only ∧ s7.pktinfo = s.pktinfo ∧ (af = .inet6 → s7.pktinfo6 = true) ∧
    (sys.usePmtu = true → s7.noPmtu = true) ∧ (s.mark = 0 → sys.usePacketMark = true → s7.mark = sys.packetMark) ∧
    (s.reuse = false → s7.reuse = sys.offload) ∧
    (s.device = none → sys.useBindToDevice = true → isV6LinkLocal b.addr = false → s7.device = b.bindtodev) := by
  subst h7 h6 h5 h4 h3 h2 h1
  simp only [apply_ite Sk.bound, apply_ite Sk.family, apply_ite Sk.v6only, apply_ite Sk.pktinfo, apply_ite Sk.pktinfo6, apply_ite Sk.noPmtu,
    apply_ite Sk.mark, apply_ite Sk.reuse, apply_ite Sk.device, ite_self, if_true]
  refine ⟨trivial, trivial, trivial, trivial, ?_, ?_, ?_, ?_, ?_⟩
  · intro h; simp [h]
  · intro h; simp [h]
  · intro h h'
    simp only [h, h', Bool.true_and, decide_eq_true_eq]
    by_cases hm : sys.packetMark = 0 <;> simp [hm]
  · intro h; cases sys.offload <;> cases early <;> simp [h]
  · intro h h' h''
    cases hb : b.bindtodev <;> simp [h, h', h'']

theorem setup_post {sys : Sys} {b : Bind} {early : Bool} {f0 : Nat → Option Sk} {G : Sk → Prop} {fd : Nat} {s : Sk} {af : Family} {k : K}
    (h : Opened f0 fd s k.fds) (h1 : s.reuse = false) (h2 : s.mark = 0) (h3 : s.device = none)
    (hg : ∀ s' a, bindAddr sys b af = some a → s'.bound = some a → s'.family = s.family → s'.v6only = s.v6only →
      (sys.usePktinfo = true → s'.pktinfo = true) → (af = .inet6 → s'.pktinfo6 = true) → (sys.usePmtu = true → s'.noPmtu = true) →
      (sys.usePacketMark = true → s'.mark = sys.packetMark) → s'.reuse = sys.offload →
      (sys.useBindToDevice = true → isV6LinkLocal b.addr = false → s'.device = b.bindtodev) → G s') :
    Post f0 G fd (setup sys b early fd af k) := by
  unfold setup
  refine opt_post h fun k sp hsp h => ?_
  suffices hh : ∀ k s0, (s0 = sp ∨ s0 = { sp with freebind := true }) → Opened f0 fd s0 k.fds → Post f0 G fd
      ((opt sys (af = .inet6) fd (fun s => { s with pktinfo6 := true }) <|
        opt sys (sys.useBindToDevice && b.bindtodev.isSome && !isV6LinkLocal b.addr) fd (fun s => { s with device := b.bindtodev }) <|
        opt sys sys.usePmtu fd (fun s => { s with noPmtu := true }) <|
          opt sys (sys.usePacketMark && sys.packetMark ≠ 0) fd (fun s => { s with mark := sys.packetMark }) <|
            match bindAddr sys b af with
            | none => failed fd
            | some a =>
              opt sys (sys.offload && early) fd (fun s => { s with reuse := true }) <|
                opt sys true fd (fun s => { s with bound := some a }) <|
                  opt sys (sys.offload && !early) fd (fun s => { s with reuse := true }) <|
                    pure (some fd)) k) by
    cases hf : sys.useFreebind with
    | false => exact hh k _ (.inl rfl) h
    | true =>
      obtain ⟨r, k', e, h'⟩ := call_eq (sys := sys) h fun s => { s with freebind := true }
      show Post f0 G fd ((call sys fd _ >>= fun _ => _) k)
      rw [bind_eq, e]
      refine hh k' _ ?_ h'
      cases r
      · exact .inl rfl
      · exact .inr rfl
  intro k s0 hs0 h
  have e0 : s0.reuse = false ∧ s0.mark = 0 ∧ s0.device = none ∧ s0.family = s.family ∧ s0.v6only = s.v6only ∧
      (sys.usePktinfo = true → s0.pktinfo = true) := by
    subst hsp
    rcases hs0 with rfl | rfl <;> cases hp : sys.usePktinfo <;> simp [h1, h2, h3]
  clear hs0 h1 h2 h3
  obtain ⟨e1, e2, e3, e4, e5, e6⟩ := e0
  refine opt_post h fun k s1 h1 h => opt_post h fun k s2 h2 h => opt_post h fun k s3 h3 h => opt_post h fun k s4 h4 h => ?_
  cases ha : bindAddr sys b af with
  | none => exact failed_post h
  | some a =>
    refine opt_post h fun k s5 h5 h => opt_post h fun k s6 h6 h => opt_post h fun k s7 h7 h => ⟨rfl, s7, h, ?_⟩
    obtain ⟨g1, g2, g3, g4, g5, g6, g7, g8, g9⟩ := set_fields h1 h2 h3 h4 h5 h6 h7
    exact hg s7 a ha g1 (g2.trans e4) (g3.trans e5) (fun x => g4.trans (e6 x)) g5 g6 (g7 e2) (g8 e1) (g9 e3)

/-! ## Interfaces -/

theorem digits_lt (ds : Bytes) (h : ∀ c ∈ ds, Config.Opt.isDigit c = true) (n : Nat) :
    ds.foldl (fun n c => 10 * n + (c.toNat - 0x30)) n < (n + 1) * 10 ^ ds.length := by
  induction ds generalizing n with
  | nil => simp
  | cons c ds ih =>
    have hc : c.toNat - 0x30 ≤ 9 := by
      have := h c (by simp)
      simp only [Config.Opt.isDigit, Bool.and_eq_true, decide_eq_true_eq, UInt8.le_iff_toNat_le] at this
      have h2 : c.toNat ≤ 57 := this.2
      omega
    rw [List.foldl_cons, List.length_cons, Nat.pow_succ']
    refine Nat.lt_of_lt_of_le (ih (fun c hc => h c (by simp [hc])) _) ?_
    rw [← Nat.mul_assoc]
    exact Nat.mul_le_mul_right _ (by omega)

theorem takeWhile_eq {p : UInt8 → Bool} {l : Bytes} (h : ∀ c ∈ l, p c = true) : l.takeWhile p = l ∧ l.dropWhile p = [] := by
  induction l with
  | nil => exact ⟨rfl, rfl⟩
  | cons c l ih =>
    have := ih fun c hc => h c (by simp [hc])
    simp [List.takeWhile, List.dropWhile, h c (by simp), this]

theorem mem_dropWhile {p : UInt8 → Bool} {l : Bytes} {c : UInt8} (h : c ∈ l) (hp : p c = false) : c ∈ l.dropWhile p := by
  induction l with
  | nil => exact h
  | cons d l ih =>
    rw [List.dropWhile_cons]
    split
    · rename_i hd
      rcases List.mem_cons.1 h with rfl | h
      · rw [hp] at hd; cases hd
      · exact ih h
    · exact h

theorem strtoul_digits {dev : Bytes} (h : ∀ c ∈ dev, 0x30 ≤ c ∧ c ≤ 0x39) (hl : dev.length < 20) :
    strtoul dev = (UInt32.ofNat (dev.foldl (fun n c => 10 * n + (c.toNat - 0x30)) 0), true) := by
  have hd : ∀ c ∈ dev, Config.Opt.isDigit c = true := by
    intro c hc
    obtain ⟨h1, h2⟩ := h c hc
    simp [Config.Opt.isDigit, h1, h2]
  cases dev with
  | nil => decide
  | cons c l =>
    have hc := h c (by simp)
    have hsp : Config.Opt.isSpace c = false := by
      simp only [Config.Opt.isSpace, Bool.or_eq_false_iff, decide_eq_false_iff_not, Bool.and_eq_false_iff]
      have h1 := UInt8.le_iff_toNat_le.1 hc.1
      have h1' : 48 ≤ c.toNat := h1
      refine ⟨fun e => ?_, .inr fun e => ?_⟩
      · rw [e] at h1'; exact absurd h1' (by decide)
      · have := UInt8.le_iff_toNat_le.1 e
        have h3 : c.toNat ≤ 13 := this
        omega
    have hne : c ≠ 0x2d ∧ c ≠ 0x2b := by
      constructor <;> (rintro rfl; exact absurd hc.1 (by decide))
    have e1 : (c :: l).dropWhile Config.Opt.isSpace = c :: l := by simp [List.dropWhile, hsp]
    obtain ⟨t1, t2⟩ := takeWhile_eq hd
    have hlt := digits_lt (c :: l) hd 0
    have hlt2 : Config.Opt.digits (c :: l) < 10 ^ 19 := by
      refine Nat.lt_of_lt_of_le hlt ?_
      rw [Nat.zero_add, Nat.one_mul]
      exact Nat.pow_le_pow_right (by decide) (by omega)
    have hlt3 : ¬ Config.Opt.digits (c :: l) ≥ 2 ^ 64 := by
      have : (10 : Nat) ^ 19 < 2 ^ 64 := by decide
      omega
    unfold strtoul
    simp only [e1, List.head?_cons, Option.some.injEq, hne.1, hne.2, decide_false, Bool.false_or, Bool.false_eq_true, if_false, t1, t2, hlt3]
    rfl

theorem strtoul_other {dev : Bytes} (h : ∃ c ∈ dev, ¬ (0x30 ≤ c ∧ c ≤ 0x39) ∧ c ≠ 0x20 ∧ ¬ (0x09 ≤ c ∧ c ≤ 0x0d) ∧ c ≠ 0x2b ∧ c ≠ 0x2d) :
    (strtoul dev).2 = false := by
  obtain ⟨c, hc, h1, h2, h3, h4, h5⟩ := h
  have hd : Config.Opt.isDigit c = false := by
    cases e : Config.Opt.isDigit c with
    | false => rfl
    | true => simp [Config.Opt.isDigit] at e; exact absurd e h1
  have hs : Config.Opt.isSpace c = false := by
    cases e : Config.Opt.isSpace c with
    | false => rfl
    | true =>
      simp only [Config.Opt.isSpace, Bool.or_eq_true, decide_eq_true_eq, Bool.and_eq_true] at e
      rcases e with e | e
      · exact absurd e h2
      · exact absurd e h3
  have m1 := mem_dropWhile (p := Config.Opt.isSpace) hc hs
  unfold strtoul
  generalize dev.dropWhile Config.Opt.isSpace = r at *
  have m2 : c ∈ (if (decide (r.head? = some 0x2d) || decide (r.head? = some 0x2b)) = true then r.drop 1 else r) := by
    split
    · rename_i hh
      cases r with
      | nil => exact m1
      | cons d l =>
        rcases List.mem_cons.1 m1 with rfl | m
        · simp [h4, h5] at hh
        · exact m
    · exact m1
  show (if _ then _ else _ : UInt32 × Bool).2 = false
  generalize (if (decide (r.head? = some 0x2d) || decide (r.head? = some 0x2b)) = true then r.drop 1 else r) = q at *
  split
  · cases dev with
    | nil => cases hc
    | cons => rfl
  · have m3 := mem_dropWhile (p := Config.Opt.isDigit) m2 hd
    show (q.dropWhile Config.Opt.isDigit).isEmpty = false
    cases e : q.dropWhile Config.Opt.isDigit with
    | nil => rw [e] at m3; cases m3
    | cons => rfl

theorem scope_ok {sys : Sys} {dev : Bytes} (h : scopeId sys dev ≠ 0) : Scope sys dev (scopeId sys dev) := by
  refine ⟨h, fun hd hl => ?_, fun ho => ?_⟩
  · simp [scopeId, strtoul_digits hd hl]
  · have := strtoul_other ho
    unfold scopeId
    generalize strtoul dev = x at *
    obtain ⟨n, w⟩ := x
    simp only at this
    simp [this]

/-! ## Sockets -/

theorem bindAddr_ok {sys : Sys} {b : Bind} {af : Family} {a : Addr} {s : Sk} (h : bindAddr sys b af = some a) (hb : s.bound = some a)
    (hf : s.family = af) (hv : match b.addr with | .v4 .. => af = .inet | .v6 .. => af = .inet6 ∧ s.v6only = true | .unspec _ => af = .inet ∨ s.v6only = false) :
    BoundTo sys b s := by
  have z4 : Config.Exec.vec4 [] = Vector.replicate 4 0 := by decide
  have z6 : Config.Exec.vec16 [] = Vector.replicate 16 0 := by decide
  unfold bindAddr at h
  cases ha : b.addr with
  | v4 ip port =>
    rw [ha] at h hv
    cases h
    exact .v4 ha (hf.trans hv) hb
  | v6 ip port flow scope =>
    rw [ha] at h hv
    obtain ⟨rfl, hv⟩ := hv
    cases hd : b.bindtodev with
    | none => rw [hd] at h; cases h; exact .v6 ha hf hv (.inr hd) hb
    | some dev =>
      rw [hd] at h
      cases hl : Daemon.linkLocal ip with
      | false => simp [hl] at h; rw [← h] at hb; exact .v6 ha hf hv (.inl hl) hb
      | true =>
        by_cases h0 : scopeId sys dev = 0
        · simp [hl, h0] at h
        · simp [hl, h0] at h; rw [← h] at hb; exact .scoped ha hf hv hl hd (scope_ok h0) hb
  | unspec port =>
    rw [ha] at h hv
    cases af with
    | inet => cases h; rw [z4] at hb; exact .any4 ha hf hb
    | inet6 => cases h; rw [z6] at hb; exact .any6 ha hf (by simpa using hv) hb

/-- All that may become of the opening of a socket -/
def Done (sys : Sys) (b : Bind) (f0 : Nat → Option Sk) : Option (Option Nat) × K → Prop
  | (none, _) => Config.Exec.notV6 b.addr = true
  | (some none, k) => k.fds = f0
  | (some (some fd), k) => ∃ s, Opened f0 fd s k.fds ∧ IsSet sys b s

theorem Post.done {sys : Sys} {b : Bind} {f0 : Nat → Option Sk} {fd : Nat} {r : Option (Option Nat) × K} (h : Post f0 (IsSet sys b) fd r) : Done sys b f0 r := by
  obtain ⟨r, k⟩ := r
  match r, h with
  | some none, h => exact h
  | some (some fd'), h => obtain ⟨rfl, h⟩ := h; exact h

theorem setup_set {sys : Sys} {b : Bind} {early : Bool} {f0 : Nat → Option Sk} {fd : Nat} {s : Sk} {af : Family} {k : K}
    (h : Opened f0 fd s k.fds) (h1 : s.reuse = false) (h2 : s.mark = 0) (h3 : s.device = none) (hf : s.family = af)
    (hv : match b.addr with | .v4 .. => af = .inet | .v6 .. => af = .inet6 ∧ s.v6only = true | .unspec _ => af = .inet ∨ s.v6only = false) :
    Done sys b f0 (setup sys b early fd af k) := by
  refine (setup_post (G := IsSet sys b) h h1 h2 h3 ?_).done
  intro s' a ha hb g1 g2 g3 g4 g5 g6 g7 g8
  refine ⟨bindAddr_ok ha hb (g1.trans hf) (by rw [g2]; exact hv), g6, fun x y => g8 x ?_, g5, g3, fun x => g4 (by rw [← hf, ← g1, x]), g7⟩
  cases hba : b.addr with
  | v6 ip port flow scope => exact y ip port flow scope hba
  | _ => rfl

theorem socket_eq (sys : Sys) (af : Family) (k : K) :
    (∃ k', socket sys af k = (some none, k') ∧ k'.fds = k.fds) ∨
    ∃ fd k', socket sys af k = (some (some fd), k') ∧ Opened k.fds fd { family := af } k'.fds := by
  unfold socket
  cases sys.tape k.pos with
  | none => exact .inl ⟨_, rfl, rfl⟩
  | some fd =>
    cases hf : k.fds fd with
    | some s => exact .inl ⟨{ fds := k.fds, pos := k.pos + 1 }, by simp [hf], rfl⟩
    | none => exact .inr ⟨fd, { fds := _, pos := _ }, by simp [hf]; exact ⟨rfl, rfl⟩, hf, rfl⟩

theorem setup4_done {sys : Sys} {b : Bind} {early : Bool} {f0 : Nat → Option Sk} {k : K} (hf0 : k.fds = f0) (hb : Config.Exec.notV6 b.addr = true) :
    Done sys b f0 (setup4 sys b early k) := by
  subst hf0
  unfold setup4
  rw [bind_eq]
  rcases socket_eq sys .inet k with ⟨k', e, h⟩ | ⟨fd, k', e, h⟩
  · rw [e]; exact hb
  · rw [e]
    refine setup_set h rfl rfl rfl rfl ?_
    cases ha : b.addr with
    | v6 => rw [ha] at hb; cases hb
    | v4 => rfl
    | unspec => exact .inl rfl

theorem opt_done {sys : Sys} {b : Bind} {f0 : Nat → Option Sk} {fd : Nat} {s : Sk} {k : K} (h : Opened f0 fd s k.fds) {f : Sk → Sk}
    {next : M (Option Nat)} (hn : ∀ k', Opened f0 fd (f s) k'.fds → Done sys b f0 (next k')) : Done sys b f0 (opt sys true fd f next k) := by
  unfold opt
  obtain ⟨r, k', e, h'⟩ := call_eq (sys := sys) h f
  show Done sys b f0 ((call sys fd f >>= fun ok => if ok then next else failed fd) k)
  rw [bind_eq, e]
  cases r with
  | true => exact hn k' h'
  | false => exact (failed_post (G := IsSet sys b) h').done

theorem bindSocket_done (sys : Sys) (b : Bind) (early : Bool) (k : K) : Done sys b k.fds (bindSocket sys b early k) := by
  unfold bindSocket
  cases ha : b.addr with
  | v4 ip port => exact setup4_done rfl (by rw [ha]; rfl)
  | v6 ip port flow scope =>
    show Done sys b k.fds ((socket sys .inet6 >>= fun fd => _) k)
    rw [bind_eq]
    rcases socket_eq sys .inet6 k with ⟨k', e, h⟩ | ⟨fd, k', e, h⟩
    · rw [e]; exact h
    · rw [e]
      exact opt_done h fun k' h' => setup_set h' rfl rfl rfl rfl (by rw [ha]; exact ⟨rfl, rfl⟩)
  | unspec port =>
    show Done sys b k.fds ((socket sys .inet6 >>= fun fd => _) k)
    rw [bind_eq]
    rcases socket_eq sys .inet6 k with ⟨k', e, h⟩ | ⟨fd, k', e, h⟩
    · rw [e]; exact setup4_done h (by rw [ha]; rfl)
    · rw [e]
      exact opt_done h fun k' h' => setup_set h' rfl rfl rfl rfl (by rw [ha]; exact .inr rfl)

end Fastd.Net
