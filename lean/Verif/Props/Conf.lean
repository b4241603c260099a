import Verif.Config.ExecConf
import Verif.Config.Shell

/-!
# C71 to C75: what a configuration means
-/

namespace Fastd.Config.Spec

open Fastd.Config (Bytes)
open Fastd.Config.Gram
open Fastd.Config.Exec
open Fastd.Config.Shell

variable {D : Type} {env : Env D}

/-- **C72, accepted**: a configuration is accepted if and only if the file and all files included by it, at most 10 levels deep, can be read and have the
right syntax, all statements are valid, and the keys of the peers can be read and are distinct. -/
theorem C72_accepted (hs : Sane env) (name : Bytes) (d : D) :
    (∃ st, readConf env maxDepth 0 name (start d) = .ok () st) ↔
    ∃ ts d' body xs, File env d name ts d' ∧ DConf body ts ∧ ExpC env 9 d' body xs ∧ (∀ x ∈ (walk 1 0 xs).1, Valid env x.2) ∧ KeysValid env (walk 1 0 xs).1 := by
  constructor
  · rintro ⟨st, h⟩
    obtain ⟨_, xs, ⟨k', ts, d', hk, hf, hx⟩, hi⟩ := readConf_good hs maxDepth 0 name [] 1 (start d) st (inv_start d) (Nat.lt_succ_self _) h
    obtain rfl : k' = 9 := by unfold maxDepth at hk; omega
    rcases hx with ⟨_, body, hd, he⟩ | ⟨h0, _⟩
    · exact ⟨ts, d', body, xs, hf, hd, he, by simpa using hi.valid, by simpa using hi.keys⟩
    · exact absurd rfl h0
  · rintro ⟨ts, d', body, xs, hf, hd, he, hv, hk⟩
    exact readConf_complete hs maxDepth 0 name [] 1 (start d) xs (inv_start d) (Nat.lt_succ_self _) ⟨9, ts, d', rfl, hf, .inl ⟨rfl, body, hd, he⟩⟩ hv (by simpa using hk)

/-- **C72, meaning**: after reading a configuration that is accepted, the groups, the peers and the settings are those of its statements, where included files
stand for their statements, and every statement belongs to the innermost group around it. fastd is in the directory in which it was started. -/
theorem C72 (hs : Sane env) {name : Bytes} {d : D} {st : St D} (h : readConf env maxDepth 0 name (start d) = .ok () st)
    {ts d' body xs} (hf : File env d name ts d') (hd : DConf body ts) (he : ExpC env 9 d' body xs) :
    st.cwd = d ∧ Meets env (walk 1 0 xs).1 (walk 1 0 xs).2 st := by
  obtain ⟨hc, ys, hy, hi⟩ := readConf_good hs maxDepth 0 name [] 1 (start d) st (inv_start d) (Nat.lt_succ_self _) h
  have hx : IncX env maxDepth (start d).cwd 0 name xs := ⟨9, ts, d', rfl, hf, .inl ⟨rfl, body, hd, he⟩⟩
  obtain rfl := hy.det hx
  exact ⟨hc, by simpa using hi.meets⟩

/-- **C71**: in every configuration that is accepted, the bind addresses for outgoing IPv4 and IPv6 connections are the last ones marked as default, or else the
first ones that can be used. -/
theorem C71 (hs : Sane env) {name : Bytes} {d : D} {st : St D} (h : readConf env maxDepth 0 name (start d) = .ok () st) :
    IsDefault (fun b => notV6 b.addr) (·.default4) st.conf.bindAddrs.reverse st.conf.default4 ∧
    IsDefault (fun b => notV4 b.addr) (·.default6) st.conf.bindAddrs.reverse st.conf.default6 := by
  obtain ⟨_, ys, hy, hi⟩ := readConf_good hs maxDepth 0 name [] 1 (start d) st (inv_start d) (Nat.lt_succ_self _) h
  exact ⟨hi.meets.conf.default4, hi.meets.conf.default6⟩

/-! ## C73: peer directories -/

theorem eligible_iff {e} : eligible e = true ↔ Wanted e := by
  unfold eligible Wanted
  split
  · rename_i h; simp [h]
  · split
    · rename_i h1 h2; simp [h2]
    · rename_i h1 h2; simp [h1, h2]

theorem peerFile_iff {g dir} {d : D} {name p} : PeerFile env g dir d name p ↔
    ∃ xs, IncP env maxDepth d name xs ∧ (∀ s ∈ xs, ValidP s) ∧ p = peerAfter env { newPeer (some name) with sourceDir := some dir } g xs := by
  constructor
  · rintro ⟨ts, d', body, xs, hf, hd, he, hv, rfl⟩
    exact ⟨xs, ⟨9, ts, d', body, rfl, hf, hd, he⟩, hv, rfl⟩
  · rintro ⟨xs, ⟨k, ts, d', body, hk, hf, hd, he⟩, hv, rfl⟩
    obtain rfl : k = 9 := by unfold maxDepth at hk; omega
    exact ⟨ts, d', body, xs, hf, hd, he, hv, rfl⟩

theorem readEntries_spec (hs : Sane env) (g : Nat) (dir : Bytes) : ∀ es st,
    (∃ ps, readEntries env g dir es st = .ok ps st ∧ DirPeers env g dir st.cwd es ps) ∨ readEntries env g dir es st = .exit := by
  intro es
  induction es with
  | nil => intro st; exact .inl ⟨[], rfl, .nil⟩
  | cons e es ih =>
    intro st
    simp only [readEntries]
    split
    · rename_i he
      have hw := eligible_iff.1 he
      split
      · rename_i p st' hr
        have hk := readPeer_keeps hs g maxDepth e.1 { newPeer (some e.1) with sourceDir := some dir } st
        rw [hr] at hk
        cases hk
        obtain ⟨xs, hx, hv, hp⟩ := readPeer_ok' hs (p₀ := { newPeer (some e.1) with sourceDir := some dir }) maxDepth e.1 _ [] st p st rfl hr
        rcases ih st with ⟨ps, h, hd⟩ | h
        · exact .inl ⟨p :: ps, by rw [h]; rfl, .take hw (peerFile_iff.2 ⟨xs, hx, hv, by simpa using hp⟩) hd⟩
        · exact .inr (by rw [h]; rfl)
      · rename_i st' hr
        have hk := readPeer_keeps hs g maxDepth e.1 { newPeer (some e.1) with sourceDir := some dir } st
        rw [hr] at hk
        cases hk
        rcases ih st with ⟨ps, h, hd⟩ | h
        · refine .inl ⟨ps, h, .skip (fun _ p hp => ?_) hd⟩
          obtain ⟨xs, hx, hv, _⟩ := peerFile_iff.1 hp
          obtain ⟨p', hp'⟩ := readPeer_valid hs g maxDepth e.1 { newPeer (some e.1) with sourceDir := some dir } st xs hx hv
          rw [hr] at hp'
          cases hp'
        · exact .inr h
      · exact .inr rfl
    · rename_i he
      rcases ih st with ⟨ps, h, hd⟩ | h
      · exact .inl ⟨ps, h, .skip (fun hw => absurd (eligible_iff.2 hw) he) hd⟩
      · exact .inr h

theorem readDirs_spec (hs : Sane env) (g : Nat) (here : D) : ∀ dirs st, (∀ dir ∈ dirs, ∀ d, env.chdir d dir = env.chdir here dir) →
    (∃ ps d, readDirs env g dirs st = .ok ps { st with cwd := d } ∧ DirsPeers env g here dirs ps) ∨ readDirs env g dirs st = .exit := by
  intro dirs
  induction dirs with
  | nil => intro st _; exact .inl ⟨[], st.cwd, rfl, .nil⟩
  | cons dir dirs ih =>
    intro st ha
    have ha' : ∀ dir ∈ dirs, ∀ d, env.chdir d dir = env.chdir here dir := fun x hx => ha x (List.mem_cons_of_mem _ hx)
    simp only [readDirs]
    rw [ha dir (by simp) st.cwd]
    cases hc : env.chdir here dir with
    | none =>
      simp only
      rcases ih st ha' with ⟨ps, d, h, hd⟩ | h
      · exact .inl ⟨ps, d, h, .skip (by simp [hc]) hd⟩
      · exact .inr h
    | some d =>
      simp only
      cases hen : env.entries d with
      | none =>
        simp only
        rcases ih { st with cwd := d } ha' with ⟨ps, d', h, hd⟩ | h
        · exact .inl ⟨ps, d', h, .skip (by simp [hc, hen]) hd⟩
        · exact .inr h
      | some es =>
        simp only
        rcases readEntries_spec hs g dir es { st with cwd := d } with ⟨ps, h, hd⟩ | h
        · rw [h]
          simp only [Res.bind]
          rcases ih { st with cwd := d } ha' with ⟨qs, d', h', hd'⟩ | h'
          · exact .inl ⟨ps ++ qs, d', by rw [h'], .dir hc hen hd hd'⟩
          · exact .inr (by rw [h'])
        · exact .inr (by rw [h]; rfl)

/-- **C73, peers**: when the peer directories of a group are read, also while fastd is running, either fastd exits, or exactly the peers described by
files of the directories are found. Files with errors do not affect other files, the settings, the groups, or the current directory. -/
theorem C73_peers (hs : Sane env) {g : Nat} {st : St D} {gr : Group} (hg : st.groups[g]? = some gr)
    (ha : ∀ dir ∈ gr.peerDirs, ∀ d, env.chdir d dir = env.chdir st.cwd dir) :
    (∃ ps, readPeerDirs env g st = .ok ps st ∧ DirsPeers env g st.cwd gr.peerDirs ps) ∨ readPeerDirs env g st = .exit := by
  unfold readPeerDirs
  rw [hg]
  simp only
  rcases readDirs_spec hs g st.cwd gr.peerDirs st ha with ⟨ps, d, h, hd⟩ | h
  · refine .inl ⟨ps, ?_, hd⟩
    rw [h]
    simp only [Res.bind, back_eq hs]
  · exact .inr (by rw [h]; rfl)

/-- The directories of a configuration satisfy the assumption of `C73_peers`. -/
theorem C73_absolute (hs : Sane env) {name : Bytes} {d : D} {st : St D} (h : readConf env maxDepth 0 name (start d) = .ok () st) {g : Nat} {gr : Group}
    (hg : st.groups[g]? = some gr) : ∀ dir ∈ gr.peerDirs, ∀ d d', env.chdir d dir = env.chdir d' dir := by
  obtain ⟨_, ys, hy, hi⟩ := readConf_good hs maxDepth 0 name [] 1 (start d) st (inv_start d) (Nat.lt_succ_self _) h
  have hlt : g < st.groups.length := (List.getElem?_eq_some_iff.1 hg).1
  rw [hi.meets.count] at hlt
  have := hi.meets.group g hlt
  rw [hg] at this
  cases this
  intro dir hdir d1 d2
  simp only [groupSpec, List.mem_reverse, List.mem_filterMap] at hdir
  obtain ⟨⟨i, it⟩, _, he⟩ := hdir
  cases it with
  | leaf d s =>
    cases s with
    | inclPeers x =>
      simp only [theDir, Option.map_eq_some_iff] at he
      obtain ⟨a, _, rfl⟩ := he
      rw [hs, hs]
    | _ => simp [theDir] at he
  | _ => simp [theDir] at he

theorem infix_of_append {α} {l a b : List α} (h : l <:+: b) : l <:+: a ++ b := by
  obtain ⟨s, t, rfl⟩ := h
  exact ⟨a ++ s, t, by simp⟩

theorem pRemote_incl {af ts f r} : pRemote af ts ≠ some (.incl f, r) := by
  intro h
  unfold pRemote at h
  split at h
  · split at h
    · cases h
    · simp at h
  · split at h
    · cases h
    · simp at h
  · split at h
    · cases h
    · simp at h
  · simp at h
  · cases h

theorem pPBody_incl {ts f r} (h : pPBody ts = some (.incl f, r)) : ts = .kw .kInclude :: .str f :: r := by
  unfold pPBody at h
  split at h
  · split at h
    · unfold pRemoteAf at h
      split at h
      · exact absurd h pRemote_incl
      · split at h
        · exact absurd h pRemote_incl
        · exact absurd h pRemote_incl
    all_goals first | (simp at h; done) | skip
    · rename_i r'
      unfold pStr at h
      split at h
      · simp at h; obtain ⟨rfl, rfl⟩ := h; rfl
      · simp at h
  · cases h

theorem runPeer_no_exit {inc : Bytes → Peer → St D → Res D Peer} {bad} {d : D} (hk : ∀ f p st, Keeps st (inc f p st)) : ∀ n ts p st, st.cwd = d →
    (∀ f', [.kw .kInclude, .str f'] <:+: ts → ∀ p st, st.cwd = d → inc f' p st ≠ .exit) → runPeer env inc bad n ts p st ≠ .exit := by
  intro n
  induction n with
  | zero => intro ts p st _ _ h; cases h
  | succ n ih =>
    intro ts p st hst hi h
    unfold runPeer at h
    split at h
    · split at h <;> cases h
    · split at h
      · cases h
      · rename_i f r hp
        have hpre := pPBody_incl hp
        have hne := hi f ⟨[], r, by simp [hpre]⟩ p st hst
        have hkk := hk f p st
        cases hr : inc f p st with
        | exit => exact hne hr
        | fail st1 => rw [hr] at h; cases h
        | ok p1 st1 =>
          rw [hr] at h hkk
          cases hkk
          simp only [Res.bind] at h
          split at h
          · rename_i r2 hs2
            obtain ⟨t, _, he⟩ := pP_of_body hp hs2
            exact ih r2 p1 _ hst (fun f' hf' => hi f' (by rw [he]; exact infix_of_append hf')) h
          · cases h
      · rename_i s r hne hp
        split at h
        · cases h
        · split at h
          · rename_i r2 hs2
            obtain ⟨t, _, he⟩ := pP_of_body hp hs2
            exact ih r2 _ st hst (fun f' hf' => hi f' (by rw [he]; exact infix_of_append hf')) h
          · cases h

theorem readPeer_no_exit (hs : Sane env) (g : Nat) : ∀ k f p st, Shallow env k st.cwd f → readPeer env g k f p st ≠ .exit := by
  intro k
  induction k with
  | zero => intro f p st h; exact h.elim
  | succ k ih =>
    intro f p st hsh h
    unfold readPeer readFile at h
    split at h
    · cases h
    · rename_i x hf
      split at h
      · cases h
      · rename_i d' hd
        split at h
        · cases h
        · cases h
        · rename_i hr
          refine runPeer_no_exit (d := d') (readPeer_keeps hs g k) _ _ _ { st with cwd := d' } rfl ?_ hr
          intro f' hf' p st1 hst1
          exact ih f' p st1 (by rw [hst1]; exact hsh _ _ _ hf hd f' hf')

theorem readEntries_no_exit (hs : Sane env) (g : Nat) (dir : Bytes) : ∀ es st, (∀ e ∈ es, Wanted e → Shallow env maxDepth st.cwd e.1) →
    readEntries env g dir es st ≠ .exit := by
  intro es
  induction es with
  | nil => intro st _ h; cases h
  | cons e es ih =>
    intro st hsh h
    have ih' := ih st (fun e he => hsh e (List.mem_cons_of_mem _ he))
    simp only [readEntries] at h
    split at h
    · rename_i he
      have hk := readPeer_keeps hs g maxDepth e.1 { newPeer (some e.1) with sourceDir := some dir } st
      split at h
      · rename_i p st' hr
        rw [hr] at hk
        cases hk
        rcases readEntries_spec hs g dir es st with ⟨ps, h', _⟩ | h'
        · rw [h'] at h; cases h
        · exact ih' h'
      · rename_i st' hr
        rw [hr] at hk
        cases hk
        exact ih' h
      · rename_i hr
        exact readPeer_no_exit hs g maxDepth e.1 _ st (hsh e (by simp) (eligible_iff.1 he)) hr
    · exact ih' h

theorem readDirs_no_exit (hs : Sane env) (g : Nat) (here : D) : ∀ dirs st, (∀ dir ∈ dirs, ∀ d, env.chdir d dir = env.chdir here dir) →
    (∀ dir ∈ dirs, ∀ d es, env.chdir here dir = some d → env.entries d = some es → ∀ e ∈ es, Wanted e → Shallow env maxDepth d e.1) →
    readDirs env g dirs st ≠ .exit := by
  intro dirs
  induction dirs with
  | nil => intro st _ _ h; cases h
  | cons dir dirs ih =>
    intro st ha hsh h
    have ih' := fun st => ih st (fun x hx => ha x (List.mem_cons_of_mem _ hx)) (fun x hx => hsh x (List.mem_cons_of_mem _ hx))
    simp only [readDirs] at h
    rw [ha dir (by simp) st.cwd] at h
    split at h
    · exact ih' _ h
    · rename_i d hd
      split at h
      · exact ih' _ h
      · rename_i es hes
        rcases readEntries_spec hs g dir es { st with cwd := d } with ⟨ps, h', _⟩ | h'
        · rw [h'] at h
          simp only [Res.bind] at h
          rcases readDirs_spec hs g here dirs { st with cwd := d } (fun x hx => ha x (List.mem_cons_of_mem _ hx)) with ⟨qs, d', h2, _⟩ | h2
          · rw [h2] at h; cases h
          · exact ih' _ h2
        · exact readEntries_no_exit hs g dir es _ (hsh dir (by simp) d es hd hes) h'

/-- **C73** for peer files whose inclusions end after less than 10 steps: reading the peer directories of a group does not end fastd. What is missing for
the full claim, that no peer file can end fastd, is false: see `C73_false`. -/
theorem C73_partial (hs : Sane env) {g : Nat} {st : St D} {gr : Group} (hg : st.groups[g]? = some gr)
    (ha : ∀ dir ∈ gr.peerDirs, ∀ d, env.chdir d dir = env.chdir st.cwd dir)
    (hsh : ∀ dir ∈ gr.peerDirs, ∀ d es, env.chdir st.cwd dir = some d → env.entries d = some es → ∀ e ∈ es, Wanted e → Shallow env 10 d e.1) :
    ∃ ps, readPeerDirs env g st = .ok ps st ∧ DirsPeers env g st.cwd gr.peerDirs ps := by
  rcases C73_peers hs hg ha with h | h
  · exact h
  · exfalso
    unfold readPeerDirs at h
    rw [hg] at h
    simp only at h
    rcases readDirs_spec hs g st.cwd gr.peerDirs st ha with ⟨ps, d, h', hd⟩ | h'
    · rw [h'] at h; cases h
    · exact readDirs_no_exit hs g st.cwd gr.peerDirs st ha hsh h'

namespace Demo

open Kw

/-- A file system in which all directories exist. A directory is given by its path without the first `/`. -/
def chdir (d : Bytes) : Bytes → Option Bytes
  | 0x2f :: p => some p
  | [0x2e] => some d
  | p => some (d ++ p)

def fs (file : Bytes → Bytes → Option (List T × Bool)) (entries : Bytes → Option (List (Bytes × Option Bool))) : Env Bytes :=
  { file, chdir, pwd := fun d => 0x2f :: d, dirname := fun n => if n.contains 0x2f then n.takeWhile (· ≠ 0x2f) else [0x2e], entries,
    readKey := fun k => if k.length = 2 then some k else none, ntop6 := id, cipherOk := fun _ _ => true, macOk := fun _ _ => true, protocolName := [],
    useUser := true, usePacketMark := true, statusSocket := true, dynamicPeers := true, offloadL2tp := true, multiafBind := false, bindToDevice := true }

theorem sane (file entries) : Sane (fs file entries) := fun _ _ => rfl

/-- The state after a configuration that is accepted -/
def result {α} : Res Bytes α → Option (St Bytes)
  | .ok _ st => some st
  | _ => none

/-- The file `m`:
`peer limit 7; bind any:80; peer group "g" { include "s/x"; method "a"; } bind 1.2.3.4 default; on up "u"; peer limit 8; mtu 1400; method "b"; method "c"; method "b";`
The file `s/x`: `peer limit 5; peer "p" { include "y"; float yes; } on up sync "v";`. The file `s/y`: `key "kk"; remote 1.2.3.4:5; float no;` -/
def files (d name : Bytes) : Option (List T × Bool) :=
  if d = [] ∧ name = [109] then
    some ([.kw kPeer, .kw kLimit, .uint 7, .semi, .kw kBind, .kw kAny, .colon, .uint 80, .semi,
      .kw kPeer, .kw kGroup, .str [103], .lbrace, .kw kInclude, .str [115, 0x2f, 120], .semi, .kw kMethod, .str [97], .semi, .rbrace,
      .kw kBind, .addr4 [1, 2, 3, 4], .kw kDefault, .semi, .kw kOn, .kw kUp, .str [117], .semi, .kw kPeer, .kw kLimit, .uint 8, .semi,
      .kw kMtu, .uint 1400, .semi, .kw kMethod, .str [98], .semi, .kw kMethod, .str [99], .semi, .kw kMethod, .str [98], .semi], false)
  else if d = [] ∧ name = [115, 0x2f, 120] then
    some ([.kw kPeer, .kw kLimit, .uint 5, .semi, .kw kPeer, .str [112], .lbrace, .kw kInclude, .str [121], .semi, .kw kFloat, .kw kYes, .semi, .rbrace,
      .kw kOn, .kw kUp, .kw kSync, .str [118], .semi], false)
  else if d = [115] ∧ name = [121] then
    some ([.kw kKey, .str [107, 107], .semi, .kw kRemote, .addr4 [1, 2, 3, 4], .colon, .uint 5, .semi, .kw kFloat, .kw kNo, .semi], false)
  else none

def st : Option (St Bytes) := result (readConf (fs files fun _ => none) maxDepth 0 [109] (start []))

/-- The settings of the group are those of the file included in it, and do not mix with those of the root group. Commands are executed in the directories of
their files. The bind address of the second statement is used for outgoing IPv4 connections, the `any` address for IPv6, for which two sockets are
needed here. -/
example :
    st.map (fun st => st.groups.map fun g => (g.name, g.parent)) = some [(rootName, none), ([103], some 0)] := by
  decide +kernel

example :
    st.map (fun st => st.groups.map fun g => (g.children, g.maxConnections)) = some [([1], 8), ([], 5)] := by
  decide +kernel

example :
    st.map (fun st => st.groups.map fun g => (g.methods, g.onUp)) =
      some [([[98], [99]], some { command := [117], dir := [0x2f], sync := false }), ([[97]], some { command := [118], dir := [0x2f, 115], sync := true })] := by
  decide +kernel

example :
    st.map (fun st => st.peers.map fun p => (p.name, p.group, p.floating)) = some [(some [112], some 1, true)] := by
  decide +kernel

example :
    st.map (fun st => st.peers.map fun p => (p.key, p.remotes.length)) = some [(some [107, 107], 1)] := by
  decide +kernel

example :
    st.map (fun st => (st.conf.bindAddrs.reverse.map (·.addr), st.conf.default4, st.conf.default6, st.conf.mtu, st.cwd)) =
      some ([.v4 #v[0, 0, 0, 0] 80, .v6 (.replicate 16 0) 80 0 0, .v4 #v[1, 2, 3, 4] 0], some 2, some 1, 1400, []) := by
  decide +kernel

/-- Reading the peer directory `/d` with the entries `p`, `q~`, `r`, `s`, where `p` describes a peer, `q~` is a backup file, `r` has an error behind a valid
statement, `s` describes another peer -/
def dirs : Env Bytes :=
  fs (fun d name =>
      if d = [100] ∧ (name = [112] ∨ name = [113, 0x7e]) then some ([.kw kKey, .str [107, 107], .semi], false)
      else if d = [100] ∧ name = [114] then some ([.kw kFloat, .kw kYes, .semi, .kw kFloat, .semi], false)
      else if d = [100] ∧ name = [115] then some ([.kw kKey, .str [108, 108], .semi, .kw kMtu, .uint 1000, .semi], false)
      else none)
    (fun d => if d = [100] then some [([112], some true), ([113, 0x7e], some true), ([114], some true), ([115], some true), ([116], some false)] else none)

def found : Res Bytes (List Peer) → Option (List Peer)
  | .ok ps _ => some ps
  | _ => none

example : found (readPeerDirs dirs 0 { (start []) with groups := [{ defaultGroup [] none with peerDirs := [[0x2f, 101], [0x2f, 100]] }] }) =
    some [{ newPeer (some [112]) with group := some 0, key := some [107, 107], sourceDir := some [0x2f, 100] },
      { newPeer (some [115]) with group := some 0, key := some [108, 108], mtu := 1000, sourceDir := some [0x2f, 100] }] := by
  decide +kernel

/-- The file `p` in the directory `/` includes itself. -/
def selfIncl : Env Bytes :=
  fs (fun _ _ => some ([.kw kInclude, .str [112], .semi], false)) (fun _ => some [([112], some true)])

end Demo

/-- **C73** is false: a peer file which includes itself ends fastd, also when the peer directories are read again while fastd is running. -/
theorem C73_false : ¬ ∀ (env : Env Bytes) (g : Nat) (st : St Bytes) (gr : Group), Sane env → st.groups[g]? = some gr →
    (∀ dir ∈ gr.peerDirs, ∀ d, env.chdir d dir = env.chdir st.cwd dir) → ∃ ps, readPeerDirs env g st = .ok ps st := by
  intro h
  obtain ⟨ps, hp⟩ := h Demo.selfIncl 0 { (start []) with groups := [{ defaultGroup [] none with peerDirs := [[0x2f]] }] } _ (Demo.sane _ _) rfl
    (by intro dir hd d; simp at hd; subst hd; rfl)
  have : readPeerDirs Demo.selfIncl 0 { (start []) with groups := [{ defaultGroup [] none with peerDirs := [[0x2f]] }] } = .exit := rfl
  rw [this] at hp
  cases hp

/-! ## C74: packet mark -/

/-- **C74** for marks of at most 32 bits: the mark of outgoing packets is the one configured last. Without this assumption it is false: see `C74_false`. -/
theorem C74_partial (hs : Sane env) {name : Bytes} {d : D} {st : St D} (h : readConf env maxDepth 0 name (start d) = .ok () st)
    {ts d' body xs} (hf : File env d name ts d') (hd : DConf body ts) (he : ExpC env 9 d' body xs)
    (hm : ∀ n, last theMark (walk 1 0 xs).1 = some n → n.toNat < 2 ^ 32) :
    st.conf.packetMark.toNat = ((last theMark (walk 1 0 xs).1).getD 0).toNat := by
  obtain ⟨_, hmeets⟩ := C72 hs h hf hd he
  rw [hmeets.conf.mark]
  cases hl : last theMark (walk 1 0 xs).1 with
  | none => rfl
  | some n =>
    have := hm n hl
    simp only [Option.getD_some, UInt64.toNat_toUInt32]
    omega

/-- **C74** is false: fastd accepts `packet mark 0x100000001;` and uses the mark 1. -/
theorem C74_false : ¬ ∀ (env : Env Bytes) (d name : Bytes) (st : St Bytes) (n : UInt64), Sane env →
    File env d name [.kw .kPacket, .kw .kMark, .uint n, .semi] d → readConf env maxDepth 0 name (start d) = .ok () st → st.conf.packetMark.toNat = n.toNat := by
  intro h
  let env := Demo.fs (fun _ _ => some ([.kw .kPacket, .kw .kMark, .uint 0x100000001, .semi], false)) (fun _ => none)
  obtain ⟨st, hst⟩ : ∃ st, readConf env maxDepth 0 [109] (start []) = .ok () st ∧ st.conf.packetMark = 1 := ⟨_, rfl, rfl⟩
  have := h env [] [109] st 0x100000001 (Demo.sane _ _) ⟨rfl, rfl⟩ hst.1
  rw [hst.2] at this
  revert this
  decide

/-! ## C75: waiting for commands -/

/-- The manual (doc/source/manual/config.rst:217-232): the commands for `up` and `down` are synchronous by default, the others are not. -/
def docWaits (ev : Ev) (keyword : Option Bool) : Bool := keyword.getD (ev = .up ∨ ev = .down)

/-- The statement `on <ev> [sync|async] "<cmd>";` -/
inductive OnTokens (ev : Ev) (keyword : Option Bool) (cmd : Bytes) : List T → Prop
  | none {te} : DEv ev te → keyword = .none → OnTokens ev keyword cmd (.kw .kOn :: (te ++ [.str cmd, .semi]))
  | sync {te} : DEv ev te → keyword = some true → OnTokens ev keyword cmd (.kw .kOn :: (te ++ [.kw .kSync, .str cmd, .semi]))
  | async {te} : DEv ev te → keyword = some false → OnTokens ev keyword cmd (.kw .kOn :: (te ++ [.kw .kAsync, .str cmd, .semi]))

/-- How `on` statements are read -/
theorem onTokens_stmt {ev keyword cmd ts s} (h : OnTokens ev keyword cmd ts) (hs : DGStmt s ts) : s = .on ev (keyword.getD false) cmd := by
  have h1 : DGConf [.on ev (keyword.getD false) cmd] (ts ++ []) := by
    cases h with
    | none he hk => subst hk; exact .leaf (by simpa using DGLeaf.on he .none) .nil
    | sync he hk => subst hk; exact .leaf (by simpa using DGLeaf.on he .sync) .nil
    | async he hk => subst hk; exact .leaf (by simpa using DGLeaf.on he .async) .nil
  have h2 : DGConf [s] (ts ++ []) := by
    cases hs with
    | leaf h => exact .leaf h .nil
    | group hb => simpa using DGConf.group hb .nil
  have := h1.det h2
  simpa using this.symm

/-- The `on` statements for an event -/
def theOn {D} (ev : Ev) : Item D → Option (D × Bool × Bytes)
  | .leaf d (.on ev' b cmd) => if ev' = ev then some (d, b, cmd) else none
  | _ => none

/-- **C75** for the events other than `up` and `down`, and for commands with the keyword `sync`: fastd waits for the end of the command if and only if the manual
says so. For other commands of `up` and `down` it depends on the occasion: see `C75_false`. -/
theorem C75_partial (hs : Sane env) {name : Bytes} {d : D} {st : St D} (h : readConf env maxDepth 0 name (start d) = .ok () st)
    {ts d' body xs} (hf : File env d name ts d') (hd : DConf body ts) (he : ExpC env 9 d' body xs) {g : Nat} {gr : Group} (hg : st.groups[g]? = some gr)
    {ev keyword cmd d₀} (hev : ev ≠ .verify) (hl : last (theOn ev) (own g (walk 1 0 xs).1) = some (d₀, Option.getD keyword false, cmd)) :
    ∃ c, command st.conf gr ev = some c ∧ c.command = cmd ∧ c.dir = env.pwd d₀ ∧
      (keyword = some true ∨ (ev ≠ .up ∧ ev ≠ .down) → ∀ o : Occasion, o.ev = ev → waits o c = docWaits ev keyword) := by
  obtain ⟨_, hm⟩ := C72 hs h hf hd he
  have hlt : g < st.groups.length := (List.getElem?_eq_some_iff.1 hg).1
  rw [hm.count] at hlt
  have hgr := hm.group g hlt
  rw [hg] at hgr
  have hgr := Option.some.inj hgr
  have hc : last (theCmd env ev) (own g (walk 1 0 xs).1) = some { command := cmd, dir := env.pwd d₀, sync := keyword.getD false } := by
    have : ∀ its : List (Nat × Item D), last (theCmd env ev) its = (last (theOn ev) its).map fun x => { command := x.2.2, dir := env.pwd x.1, sync := x.2.1 } := by
      intro its
      unfold last
      rw [← List.getLast?_map, List.map_filterMap]
      congr 2
      funext x
      obtain ⟨i, it⟩ := x
      cases it with
      | leaf d s => cases s <;> simp [theCmd, theOn]
      | _ => simp [theCmd, theOn]
    rw [this, hl]
    rfl
  refine ⟨{ command := cmd, dir := env.pwd d₀, sync := keyword.getD false }, ?_, rfl, rfl, ?_⟩
  · rw [hgr, ← hc]
    cases ev <;> first | rfl | exact absurd rfl hev
  · intro hk o ho
    rcases hk with rfl | ⟨h1, h2⟩
    · simp [waits, docWaits]
    · subst ho
      cases o <;> simp_all [waits, docWaits, Occasion.ev, Occasion.forced]

/-- **C75** is false: with `on up "x";` fastd does not wait for the command when the interface of a peer is created with the connection, and with
`on up async "x";` it does wait when the interface is created at the start. -/
theorem C75_false :
    (∃ (env : Env Bytes) (st : St Bytes) (gr : Group) (c : Cmd) (ts : List T), Sane env ∧ OnTokens .up none [120] ts ∧ File env [] [109] ts [] ∧
      readConf env maxDepth 0 [109] (start []) = .ok () st ∧ st.groups[0]? = some gr ∧ command st.conf gr .up = some c ∧ c.command = [120] ∧
      waits .sessionUp c = false ∧ docWaits .up none = true) ∧
    (∃ (env : Env Bytes) (st : St Bytes) (gr : Group) (c : Cmd) (ts : List T), Sane env ∧ OnTokens .up (some false) [120] ts ∧ File env [] [109] ts [] ∧
      readConf env maxDepth 0 [109] (start []) = .ok () st ∧ st.groups[0]? = some gr ∧ command st.conf gr .up = some c ∧ c.command = [120] ∧
      waits .ifaceUp c = true ∧ docWaits .up (some false) = false) := by
  constructor
  · exact ⟨Demo.fs (fun _ _ => some ([.kw .kOn, .kw .kUp, .str [120], .semi], false)) (fun _ => none), _, _, _, _, Demo.sane _ _, .none .up rfl, ⟨rfl, rfl⟩, rfl,
      rfl, rfl, rfl, rfl, rfl⟩
  · exact ⟨Demo.fs (fun _ _ => some ([.kw .kOn, .kw .kUp, .kw .kAsync, .str [120], .semi], false)) (fun _ => none), _, _, _, _, Demo.sane _ _, .async .up rfl,
      ⟨rfl, rfl⟩, rfl, rfl, rfl, rfl, rfl, rfl⟩

end Fastd.Config.Spec
