import Verif.Config.OptionsLemmas
import Verif.Props.Conf

/-!
# C76: the command line
-/

namespace Fastd.Config.Spec

open Fastd.Config (Bytes lit)
open Fastd.Config.Gram
open Fastd.Config.Exec
open Fastd.Config.Opt

variable {D : Type} {env : OEnv D}

/-- The state of the process at its start -/
def initial (d : D) : OSt D :=
  { st := start d, reads := 0, daemon := false, pidFile := none, verifyConfig := false, generateKey := false, showKey := false, machineReadable := false }

theorem configure_ok {d : D} {args s} (h : configure env d args = .ok s) :
    ∃ s₁, handle env args (initial d) = .ok s₁ ∧ DefaultLevel s₁.st.conf s.st.conf ∧ s = { s₁ with st := { s₁.st with conf := s.st.conf } } := by
  unfold configure at h
  cases hh : handle env args (initial d) with
  | ok s₁ =>
    unfold initial at hh
    simp only [hh] at h
    refine ⟨s₁, rfl, ?_⟩
    unfold DefaultLevel
    split at h
    · rename_i hn
      simp only [Bool.and_eq_true, Option.isNone_iff_eq_none] at hn
      cases h
      exact ⟨by rw [if_pos hn], rfl⟩
    · rename_i hn
      simp only [Bool.and_eq_true, Option.isNone_iff_eq_none] at hn
      cases h
      exact ⟨by rw [if_neg hn], rfl⟩
  | _ => unfold initial at hh; simp [hh] at h

theorem configure_of {d : D} {args s₁} (h : handle env args (initial d) = .ok s₁) : ∃ s, configure env d args = .ok s := by
  unfold initial at h
  unfold configure
  rw [h]
  simp only
  split <;> exact ⟨_, rfl⟩

theorem flags_initial (d : D) : Flags [] (initial d) := by
  constructor <;> simp [initial]

/-- **C76, accepted** for the command lines of `FineArgs`: a command line is accepted if and only if it consists of options, the files named by them and
all files included by those, at most 10 levels deep, can be read and have the right syntax, all statements are valid, and the keys of the peers can be read and
are distinct. Without the assumption it is false: see `C76_false`. -/
theorem C76_accepted_partial (hs : Sane env.toEnv) (hu : env.cmdUser = true → env.useUser = true) {args : List Bytes} (hf : FineArgs args) (d : D) :
    (∃ s, configure env d args = .ok s) ↔
    ∃ as xs, Cmdline env args as ∧ ExpO env d 0 as xs ∧ (∀ x ∈ (walk 1 0 xs).1, Valid env.toEnv x.2) ∧ KeysValid env.toEnv (walk 1 0 xs).1 := by
  constructor
  · rintro ⟨s, h⟩
    obtain ⟨s₁, h1, _, _⟩ := configure_ok h
    obtain ⟨as, hc⟩ := handle_cmdline _ args (Nat.le_refl _) hf _ _ h1
    rw [handle_of hu hc hf] at h1
    obtain ⟨_, xs, hx, hi⟩ := runActs_ok hs as (initial d) s₁ [] 1 (inv_start d) h1
    exact ⟨as, xs, hc, hx, by simpa using hi.valid, by simpa using hi.keys⟩
  · rintro ⟨as, xs, hc, hx, hv, hk⟩
    obtain ⟨s₁, h1⟩ := runActs_valid hs as (initial d) [] 1 xs (inv_start d) hx hv (by simpa using hk)
    rw [← handle_of hu hc hf] at h1
    exact configure_of h1

/-- **C76, meaning** for the command lines of `FineArgs`: after a command line that is accepted, the groups, the peers and the settings are those of the
statements which its options stand for, in their order. -/
theorem C76_partial (hs : Sane env.toEnv) (hu : env.cmdUser = true → env.useUser = true) {args : List Bytes} (hf : FineArgs args) {d : D} {s : OSt D}
    (h : configure env d args = .ok s) {as xs} (hc : Cmdline env args as) (hx : ExpO env d 0 as xs) :
    s.st.cwd = d ∧ Flags as s ∧ ∃ c, DefaultLevel c s.st.conf ∧ Meets env.toEnv (walk 1 0 xs).1 (walk 1 0 xs).2 { s.st with conf := c } := by
  obtain ⟨s₁, h1, hl, he⟩ := configure_ok h
  rw [handle_of hu hc hf] at h1
  obtain ⟨hcwd, ys, hy, hi⟩ := runActs_ok hs as (initial d) s₁ [] 1 (inv_start d) h1
  obtain rfl := hy.det hx
  have hfl := flags_acts as (initial d) s₁ [] (flags_initial d) h1
  have hst : s.st = { s₁.st with conf := s.st.conf } := congrArg (·.st) he
  refine ⟨?_, ?_, s₁.st.conf, hl, ?_⟩
  · rw [hst]; exact hcwd
  · rw [he]
    obtain ⟨f1, f2, f3, f4, f5, f6⟩ := hfl
    exact ⟨f1, f2, f3, f4, f5, f6⟩
  · have hm := hi.meets
    rw [hst]
    simpa using hm

namespace Demo

open Kw

/-- A computer on which `inet_pton` knows the address `::` and the IPv4 addresses consisting of one byte -/
def ofs (file : Bytes → Bytes → Option (List T × Bool)) (stdin : Nat → List T × Bool) : OEnv Bytes :=
  { fs file (fun _ => none) with
    pton4 := fun s => if s.length = 1 then some [s.getD 0 0, 0, 0, 0] else none
    pton6 := fun s => if s = lit "::" then some (List.replicate 16 0) else none
    stdin, cmdUser := true, cmdLogging := true, cmdOperation := true, cmdCommands := true }

def oresult : ORes Bytes → Option (OSt Bytes)
  | .ok s => some s
  | _ => none

/-- `-c m -d --mtu 1300 -c - --bind [::]:53 --bind x --log-level info --generate-key --show-key --on-up u` with the file `m` of `files`, and `forward yes; mtu 1200; mtu 1250;`
on the standard input -/
def cmd : List Bytes :=
  [lit "-c", lit "m", lit "-d", lit "--mtu", lit " +1300", lit "-c", lit "-", lit "--bind", lit "[::]:53", lit "-b", lit "x", lit "--log-level", lit "info",
   lit "--generate-key", lit "--show-key", lit "--on-up", lit "u"]

def ost : Option (OSt Bytes) :=
  oresult (configure (ofs files fun n => if n = 0 then ([.kw kForward, .kw kYes, .semi, .kw kMtu, .uint 1200, .semi, .kw kMtu, .uint 1250, .semi], false) else ([], true)) []
    cmd)

/-- Files and options overwrite earlier settings. -/
example : ost.map (fun s => (s.st.conf.mtu, s.st.conf.forward, s.daemon, s.generateKey, s.showKey)) = some (1250, true, true, false, true) := by
  decide +kernel

example : ost.map (fun s => (s.st.conf.bindAddrs.reverse.map (·.addr), s.st.conf.default4, s.st.conf.default6, s.st.conf.logStderr)) =
    some ([.v4 #v[0, 0, 0, 0] 80, .v6 (.replicate 16 0) 80 0 0, .v4 #v[1, 2, 3, 4] 0, .v6 (.replicate 16 0) 53 0 0, .v4 #v[120, 0, 0, 0] 0], some 2, some 1,
      some .info) := by
  decide +kernel

/-- Commands of options wait, contrary to those of files, and are executed in the current directory. -/
example : ost.map (fun s => s.st.groups.map (·.onUp)) =
    some [some { command := lit "u", dir := [0x2f], sync := true }, some { command := [118], dir := [0x2f, 115], sync := true }] := by
  decide +kernel

/-- Without a log level -/
example : (oresult (configure (ofs files fun _ => ([], false)) [] [lit "--forward"])).map (fun s => (s.st.conf.logStderr, s.st.conf.logSyslog)) = some (some .verbose, none) := by
  decide +kernel

/-- Not accepted: `--mtu 500`, `--mtu 1300x`, `--bind [::]x`, `--forwar`, `--mtu` -/
example : (oresult (configure (ofs files fun _ => ([], false)) [] [lit "--mtu", lit "500"])).isNone = true := by decide +kernel
example : (oresult (configure (ofs files fun _ => ([], false)) [] [lit "--mtu", lit "1300x"])).isNone = true := by decide +kernel
example : (oresult (configure (ofs files fun _ => ([], false)) [] [lit "--bind", lit "[::]x"])).isNone = true := by decide +kernel
example : (oresult (configure (ofs files fun _ => ([], false)) [] [lit "--forwar"])).isNone = true := by decide +kernel
example : (oresult (configure (ofs files fun _ => ([], false)) [] [lit "--mtu"])).isNone = true := by decide +kernel

def empty : OEnv Bytes := ofs (fun _ _ => none) fun _ => ([], false)

end Demo

/-- **C76** is false: for `--bind [::%e]:53` fastd reads memory that has been freed, and `--interface a/b` is accepted and ignored, although `interface "a/b";` is
not a valid statement. -/
theorem C76_false :
    configure Demo.empty [] [lit "--bind", lit "[::%e]:53"] = .freed ∧
    ∃ as xs s, Cmdline Demo.empty [lit "--interface", lit "a/b"] as ∧ ExpO Demo.empty [] 0 as xs ∧ ¬ (∀ x ∈ (walk 1 0 xs).1, Valid Demo.empty.toEnv x.2) ∧
      configure Demo.empty [] [lit "--interface", lit "a/b"] = .ok s ∧ s.st.conf.ifname = none := by
  refine ⟨rfl, [.stmt (.interface (lit "a/b"))], [.simple [] (.interface (lit "a/b"))] ++ [], _, ?_, ?_, ?_, rfl, rfl⟩
  · exact .arg (.interface rfl (by simp)) .nil
  · exact .stmt (.simple (by simp) .nil) .nil
  · intro h
    have := h (0, .simple [] (.interface (lit "a/b"))) (by simp [walk, walk1])
    revert this
    simp only [Valid]
    decide +kernel

end Fastd.Config.Spec
