import Verif.Log.Sink
import Verif.Props.Log

/-!
# Property C105: where log messages go, and hidden addresses

Messages are written to the destinations whose level includes them, and to no other ones; before the log is set up, to stderr. If IP or MAC addresses are to be
hidden, what is logged is the same for all addresses.
-/

namespace Fastd.Log

/-- **C105, destinations**: a message with matching arguments is written to stderr exactly if its level is included in the level for stderr, or the
log is not yet set up; to syslog exactly if its level is included in that for syslog, after the log has been set up; and the text is the expansion of the
format, cut off after 1023 bytes, with time and level on stderr. -/
theorem C105_where (lib : Lib) (conf : LogConf) (garbage : Bytes) (hg : garbage.length = 1024) (level : Nat) (fmt : Bytes) (args : List Raw) (t : Bytes)
    (hx : Expands fmt (convArgs lib conf fmt args) t) (hz : (0 : UInt8) ∉ t) :
    ∃ l, logOut lib conf garbage level fmt args = .ok l ∧
      (∀ o, o ∈ l ↔
        (o = .stderr (lib.time ++ logPrefix level ++ t.take 1023 ++ [10]) ∧ (conf.initialized = false ∨ level ≤ conf.stderrLevel)) ∨
        (o = .syslog (syslogLevel level) (t.take 1023) ∧ conf.initialized = true ∧ level ≤ conf.syslogLevel)) ∧ l.Nodup := by
  unfold logOut
  rw [C57_text garbage hg fmt _ t hx hz]
  by_cases h1 : conf.initialized = true
  · by_cases h2 : level ≤ conf.stderrLevel <;> by_cases h3 : level ≤ conf.syslogLevel
    · refine ⟨[.stderr (lib.time ++ logPrefix level ++ t.take 1023 ++ [10]), .syslog (syslogLevel level) (t.take 1023)], ?_, ?_, by simp⟩
      · simp [h1, h2, h3, ok_bind, pure_ok]
      · intro o; simp [h1, h2, h3]
    · refine ⟨[.stderr (lib.time ++ logPrefix level ++ t.take 1023 ++ [10])], ?_, ?_, by simp⟩
      · simp [h1, h2, h3, ok_bind, pure_ok]
      · intro o; simp [h1, h2, h3]
    · refine ⟨[.syslog (syslogLevel level) (t.take 1023)], ?_, ?_, by simp⟩
      · simp [h1, h2, h3, ok_bind, pure_ok]
      · intro o; simp [h1, h2, h3]
    · refine ⟨[], ?_, ?_, by simp⟩
      · simp [h1, h2, h3]
      · intro o; simp [h1, h2, h3]
  · have h1 : conf.initialized = false := by simpa using h1
    refine ⟨[.stderr (lib.time ++ logPrefix level ++ t.take 1023 ++ [10])], ?_, ?_, by simp⟩
    · simp [h1, ok_bind, pure_ok]
    · intro o; simp [h1]

/-- **C105, quiet**: nothing is written above the configured levels, whatever the format and the arguments are. -/
theorem C105_quiet (lib : Lib) (conf : LogConf) (garbage : Bytes) (level : Nat) (fmt : Bytes) (args : List Raw) (h : conf.initialized = true)
    (h1 : conf.stderrLevel < level) (h2 : conf.syslogLevel < level) : logOut lib conf garbage level fmt args = .ok [] := by
  unfold logOut
  have a : ¬ level ≤ conf.stderrLevel := by omega
  have b : ¬ level ≤ conf.syslogLevel := by omega
  simp [h, a, b]

/-- The order of levels is kept by syslog: what is more important here is not less important there. -/
theorem C105_syslog_order (l l' : Nat) (h : 1 ≤ l) (hl : l ≤ l') : syslogLevel l ≤ syslogLevel l' := by
  have up : ∀ n, syslogLevel n ≤ 7 := by
    intro n
    unfold syslogLevel
    split <;> omega
  rcases Nat.lt_or_ge l' 6 with h6 | h6
  · have : ∀ a, a < 6 → ∀ b, b < 6 → 1 ≤ a → a ≤ b → syslogLevel a ≤ syslogLevel b := by decide
    exact this l (by omega) l' h6 h hl
  · have : syslogLevel l' = 7 := by
      unfold syslogLevel
      split <;> omega
    rw [this]
    exact up l

/-- Two addresses that a hidden message may not tell apart: the ports are the same. -/
inductive AddrAlike : PeerAddr → PeerAddr → Prop
  | same (a) : AddrAlike a a
  | v44 (a b p) : AddrAlike (.v4 a p) (.v4 b p)
  | v46 (a b p s) : AddrAlike (.v4 a p) (.v6 b p s)
  | v64 (a b p s) : AddrAlike (.v6 a p s) (.v4 b p)
  | v66 (a b p s s') : AddrAlike (.v6 a p s) (.v6 b p s')

/-- Two arguments for a conversion that differ in addresses of the hidden kinds only. Addresses that are printed by `%B` and `%L` are those of the own sockets;
they are not hidden. -/
inductive ArgAlike (conf : LogConf) (c : UInt8) : Raw → Raw → Prop
  | same (a) : ArgAlike conf c a a
  | mac (a b) : conf.hideMac = true → ArgAlike conf c (.eth (some a)) (.eth (some b))
  | addr (a b i i') : conf.hideIp = true → c = 73 → AddrAlike a b → ArgAlike conf c (.addr (some a) i) (.addr (some b) i')

/-- Arguments for a format, one after the other -/
inductive ArgsAlike (conf : LogConf) : Bytes → List Raw → List Raw → Prop
  | done (args args') : ArgsAlike conf [] args args'
  | percent (fmt args args') : ArgsAlike conf fmt args args' → ArgsAlike conf (37 :: 37 :: fmt) args args'
  | conv (c fmt a a' args args') : c ≠ 37 → ArgAlike conf c a a' → ArgsAlike conf fmt args args' → ArgsAlike conf (37 :: c :: fmt) (a :: args) (a' :: args')
  | char (c fmt args args') : c ≠ 37 → ArgsAlike conf fmt args args' → ArgsAlike conf (c :: fmt) args args'
  | short (fmt args) : ArgsAlike conf fmt args args

theorem addrText_alike (lib : Lib) {a b : PeerAddr} (h : AddrAlike a b) : addrText lib none false true a = addrText lib none false true b := by
  cases h <;> rfl

theorem convArg_alike (lib : Lib) (conf : LogConf) {c : UInt8} {a b : Raw} (h : ArgAlike conf c a b) : convArg lib conf c a = convArg lib conf c b := by
  cases h with
  | same => rfl
  | mac a b hm => simp [convArg, hm]
  | addr a b i i' hi hc ha =>
    subst hc
    simp only [convArg, hi]
    exact congrArg (fun t => Arg.addr (some t)) (addrText_alike lib ha)

theorem convArgs_alike (lib : Lib) (conf : LogConf) {fmt : Bytes} {args args' : List Raw} (h : ArgsAlike conf fmt args args') :
    convArgs lib conf fmt args = convArgs lib conf fmt args' := by
  induction h with
  | done => simp [convArgs]
  | percent fmt args args' _ ih => simp only [convArgs]; exact ih
  | conv c fmt a a' args args' hc ha _ ih =>
    rw [convArgs, convArgs, convArg_alike lib conf ha, ih]
    · simpa using hc
    · simpa using hc
  | char c fmt args args' hc _ ih =>
    rw [convArgs, convArgs, ih] <;> (intros; simp_all)
  | short => rfl

/-- **C105, hidden addresses**: if addresses are to be hidden, what is written, and where, does not depend on the addresses of peers and of
hosts at all. -/
theorem C105_hidden (lib : Lib) (conf : LogConf) (garbage : Bytes) (level : Nat) {fmt : Bytes} {args args' : List Raw} (h : ArgsAlike conf fmt args args') :
    logOut lib conf garbage level fmt args = logOut lib conf garbage level fmt args' := by
  unfold logOut
  rw [convArgs_alike lib conf h]

/-- The addresses are there otherwise. -/
theorem C105_shown (lib : Lib) (conf : LogConf) (h : conf.hideIp = false) (a t : Bytes) (p : Nat) (ht : lib.ntop4 a = some t) (i : Option Bytes) :
    convArg lib conf 73 (.addr (some (.v4 a p)) i) = .addr (some (.text (some (t ++ str ":" ++ lib.dec p)))) := by
  simp [convArg, addrText, h, ht]

def exLib : Lib :=
  { ntop4 := fun a => some (a.flatMap fmt02x), ntop6 := fun a => some (a.flatMap fmt02x), ifname := fun _ => some (str "eth0"),
    dec := fun n => str (toString n), time := str "T " }

def exConf : LogConf := { hideIp := true, hideMac := false, initialized := true, stderrLevel := 4, syslogLevel := 3 }

/-- The address of the peer is hidden, the own one is not. -/
example : logOut exLib exConf (List.replicate 1024 0xaa) 3 (str "from %I to %B") [.addr (some (.v4 [1, 2, 3, 4] 53)) none, .addr (some (.v4 [5, 6, 7, 8] 54)) none] =
    .ok [.stderr (str "T Warning: from [hidden]:53 to 05060708:54\n"), .syslog 4 (str "from [hidden]:53 to 05060708:54")] := by decide +kernel

example : ArgsAlike exConf (str "from %I to %B") [.addr (some (.v4 [1, 2, 3, 4] 53)) none, .addr (some (.v4 [5, 6, 7, 8] 54)) none]
    [.addr (some (.v6 [9, 9] 53 0)) none, .addr (some (.v4 [5, 6, 7, 8] 54)) none] :=
  .char _ _ _ _ (by decide) <| .char _ _ _ _ (by decide) <| .char _ _ _ _ (by decide) <| .char _ _ _ _ (by decide) <| .char _ _ _ _ (by decide) <|
    .conv _ _ _ _ _ _ (by decide) (.addr _ _ _ _ rfl rfl (.v46 _ _ _ _)) (.short _ _)

end Fastd.Log
