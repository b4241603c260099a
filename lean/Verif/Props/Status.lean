import Verif.Daemon.StatusSpec

/-!
# C88: the status socket tells the truth

For all states reached from an arbitrary start by arbitrary events, in an arbitrary environment.
-/

namespace Fastd.Daemon

open Fastd.Log (str)
open Fastd.ShellEnv.Spec (Sane)

set_option linter.unusedSectionVars false

section

variable [Env]

/-- **C88**: the status can always be made, without changing anything. It has an entry for each enabled peer under its key, in
hexadecimal, that describes this peer; and there are no others. -/
theorem C88_status {st : StatusEnv} (hs : Sane st.sys) (hz : st.Sizes) {c : Ctx} (h : Reach anyEvent c) :
    ∃ j l, dumpStatus st c = .ok (j, c) ∧ j.get (str "uptime") = some (.int (c.now - st.started)) ∧
      j.get (str "interface") = (if Env.sharedIface then some (strOrNull (st.ifname none)) else none) ∧
      j.get (str "statistics") = some (st.stats none) ∧ j.get (str "peers") = some (.obj l) ∧
      List.Forall₂ (fun p kv => Util.Denotes kv.1 p.key ∧ IsPeer st c p kv.2) (c.peers.filter (·.isEnabled)) l ∧
      (l.map (·.1)).Nodup := by
  have hI : Inv False nobody nobody nobody c := h.inv fun s => s.elim
  obtain ⟨l, h1, h2⟩ := dumpPeers_ok hs hz h c.peers (fun _ h => h) hI.keys [] (by simp)
  have hk : ∀ p ∈ c.peers.filter (·.isEnabled), p.key.length = 32 := fun p hp => (hI.peer p (List.mem_filter.1 hp).1).key
  refine ⟨.obj (objAdd (objAdd (if Env.sharedIface then
      objAdd (objAdd [] (str "uptime") (.int (c.now - st.started))) (str "interface") (strOrNull (st.ifname none))
      else objAdd [] (str "uptime") (.int (c.now - st.started))) (str "statistics") (st.stats none)) (str "peers") (.obj l)),
    l, ?_, ?_, ?_, ?_, ?_, ?_, ?_⟩
  · unfold dumpStatus
    rw [bindOk (get_eq c), bindOk h1]
    rfl
  · cases Env.sharedIface <;> simp (config := { decide := true }) only [get_objAdd, if_true, if_false]
  · cases Env.sharedIface <;> simp (config := { decide := true }) only [get_objAdd, if_true, if_false]
  · cases Env.sharedIface <;> simp (config := { decide := true }) only [get_objAdd, if_true, if_false]
  · simp only [get_objAdd, if_true]
  · refine (?_ : List.Forall₂ _ _ _)
    have : ∀ {ps : List Peer} {l : List (Bytes × Json)}, (∀ p ∈ ps, p.key.length = 32) →
        List.Forall₂ (fun p kv => kv.1 = Util.hexdump p.key ∧ IsPeer st c p kv.2) ps l →
        List.Forall₂ (fun p kv => Util.Denotes kv.1 p.key ∧ IsPeer st c p kv.2) ps l := by
      intro ps l hk h
      induction h with
      | nil => exact .nil
      | @cons p kv ps l h _ ih =>
        refine .cons ⟨?_, h.2⟩ (ih fun q hq => hk q (List.mem_cons_of_mem _ hq))
        rw [h.1]
        exact Util.C51_print _ (hk p List.mem_cons_self)
    exact this hk h2
  · have : ∀ {ps : List Peer} {l : List (Bytes × Json)},
        List.Forall₂ (fun p kv => kv.1 = Util.hexdump p.key ∧ IsPeer st c p kv.2) ps l →
        l.map (·.1) = ps.map fun p => Util.hexdump p.key := by
      intro ps l h
      induction h with
      | nil => rfl
      | cons h _ ih => rw [List.map_cons, List.map_cons, h.1, ih]
    rw [this h2]
    have hn := (List.filter_sublist (p := (·.isEnabled)) (l := c.peers)).map (·.key) |>.nodup hI.keys
    unfold List.Nodup at hn ⊢
    rw [List.pairwise_map] at hn ⊢
    refine List.Pairwise.imp_of_mem (fun {p q} hp hq hne he => hne ?_) hn
    exact hexdump_inj (hk p hp) (hk q hq) he

/-- **C88**: the method of a connection is the one the next packet for the peer is encrypted with. -/
theorem C88_method {c : Ctx} {p : Peer} {data pkt : Bytes} {k : Nat} (he : Encrypts c p data k pkt) {m : Nat} (hm : InUse c p m) :
    ∃ o o', c.objs k = some o ∧ Env.encrypt m o data = some (pkt, o') := by
  obtain ⟨_, s, m', o, o', h0, h1, _, h3, h4⟩ := he
  suffices hh : m' = m by subst hh; exact ⟨o, o', h3, h4⟩
  rcases h0 with ⟨a1, a2, rfl⟩ | ⟨a1, rfl⟩ <;> rcases hm with ⟨b1, b2, b3⟩ | ⟨b1, b2⟩
  · rw [h1] at b3; exact Option.some.inj b3
  · exact absurd ⟨a1, a2⟩ b1
  · exact absurd ⟨b1, b2⟩ a1
  · rw [h1] at b2; exact Option.some.inj b2

theorem sixPeers {a : Bytes} (h : a.length = 6) : ∃ a0 a1 a2 a3 a4 a5, a = [a0, a1, a2, a3, a4, a5] :=
  match a, h with
  | [a0, a1, a2, a3, a4, a5], _ => ⟨a0, a1, a2, a3, a4, a5, rfl⟩

/-- **C88**: the MAC addresses listed for a peer are those of the table; no address is listed twice, for one or for two peers. -/
theorem C88_macs {c : Ctx} (h : Reach anyEvent c) {e e' : Eth} (he : e ∈ c.eth) (he' : e' ∈ c.eth)
    (ht : macText (e.addr.take 6) = macText (e'.addr.take 6)) : e = e' := by
  have h6 := mac_length h e he
  have h6' := mac_length h e' he'
  refine (C21_lookup h e.addr).2 e he e' he' ?_
  rw [List.take_of_length_le (by omega), List.take_of_length_le (by omega)] at ht
  obtain ⟨a0, a1, a2, a3, a4, a5, ha⟩ := sixPeers h6
  obtain ⟨b0, b1, b2, b3, b4, b5, hb⟩ := sixPeers h6'
  rw [ha, hb] at ht
  rw [ha, hb]
  have hinj : ∀ x y : UInt8, Util.fmt02x x = Util.fmt02x y → x = y := by
    have hback : ∀ x : UInt8, x = Util.hexVal ((Util.fmt02x x).getD 0 0) * 16 + Util.hexVal ((Util.fmt02x x).getD 1 0) := fun x =>
      Util.byte_cases (fun x => x = Util.hexVal ((Util.fmt02x x).getD 0 0) * 16 + Util.hexVal ((Util.fmt02x x).getD 1 0))
        (by decide +kernel) x
    intro x y hxy
    rw [hback x, hback y, hxy]
  have hlen : ∀ x, (Util.fmt02x x).length = 2 := fun _ => rfl
  simp only [macText, List.map_cons, List.map_nil, List.intercalate, List.intersperse, List.flatten_cons, List.flatten_nil,
    List.append_nil] at ht
  have cut : ∀ {x y : UInt8} {s t : Bytes}, Util.fmt02x x ++ (str ":" ++ s) = Util.fmt02x y ++ (str ":" ++ t) → x = y ∧ s = t := by
    intro x y s t h
    obtain ⟨h1, h2⟩ := List.append_inj h (by rw [hlen, hlen])
    exact ⟨hinj _ _ h1, List.append_cancel_left h2⟩
  obtain ⟨e0, ht⟩ := cut ht
  obtain ⟨e1, ht⟩ := cut ht
  obtain ⟨e2, ht⟩ := cut ht
  obtain ⟨e3, ht⟩ := cut ht
  obtain ⟨e4, ht⟩ := cut ht
  rw [e0, e1, e2, e3, e4, hinj _ _ ht]

end

/-- **C88**: the client gets the beginning of the text; and if `write` doesn't fail, all of it. -/
theorem C88_written {w : List (Option Nat)} {text out : Bytes} (h : dumpThread w text [] = some out) :
    out <+: text ∧ (none ∉ w → out = text) := by
  suffices hh : ∀ (w : List (Option Nat)) (left sent : Bytes), dumpThread w left sent = some out →
      out <+: sent ++ left ∧ (none ∉ w → out = sent ++ left) from hh w text [] h
  intro w
  induction w with
  | nil =>
    intro left sent h
    cases left with
    | nil => cases h; simp
    | cons b l => cases h
  | cons x w ih =>
    intro left sent h
    cases left with
    | nil => cases h; simp
    | cons b l =>
      cases x with
      | none => cases h; simp
      | some n =>
        simp only [dumpThread] at h
        split at h
        · cases h
        · obtain ⟨h1, h2⟩ := ih _ _ h
          rw [List.append_assoc, List.take_append_drop] at h1 h2
          exact ⟨h1, fun hn => h2 fun hx => hn (List.mem_cons_of_mem _ hx)⟩

/-- **C88**: the loop ends as soon as everything has been written. -/
theorem C88_ends {w : List Nat} {text : Bytes} (h : w.sum = text.length) : dumpThread (w.map some) text [] = some text := by
  suffices hh : ∀ (w : List Nat) (left sent : Bytes), w.sum = left.length →
      dumpThread (w.map some) left sent = some (sent ++ left) from hh w text [] h
  intro w
  induction w with
  | nil =>
    intro left sent h
    cases left with
    | nil => simp [dumpThread]
    | cons b l => simp at h
  | cons n w ih =>
    intro left sent h
    rw [List.sum_cons] at h
    cases left with
    | nil => simp [dumpThread]
    | cons b l =>
      show (if (b :: l).length < n then none else dumpThread (w.map some) ((b :: l).drop n) (sent ++ (b :: l).take n)) = _
      rw [if_neg (by omega), ih _ _ (by rw [List.length_drop]; omega), List.append_assoc, List.take_append_drop]

/-! ### Example -/

namespace Demo

mutual
/-- All texts and numbers of an object, in order. -/
def flat : Json → List (Bytes ⊕ Int)
  | .null => []
  | .int n => [.inr n]
  | .str s => [.inl s]
  | .arr l => flats l
  | .obj l => flatKvs l
def flats : List Json → List (Bytes ⊕ Int)
  | [] => []
  | j :: l => flat j ++ flats l
def flatKvs : List (Bytes × Json) → List (Bytes ⊕ Int)
  | [] => []
  | (k, j) :: l => .inl k :: (flat j ++ flatKvs l)
end

def statusDemo : StatusEnv where
  sys := { ntop4 := fun _ => str "192.0.2.1", ntop6 := fun _ => str "::1", ifname := fun _ => none }
  stats := fun _ => .null
  ifname := fun _ => some (str "fastd0")
  started := 0
  addrBuf := List.replicate 72 0xff
  keyBuf := List.replicate 65 0xff
  ethBuf := List.replicate 18 0xff

example : Sane statusDemo.sys ∧ statusDemo.Sizes :=
  ⟨⟨fun _ => (by simp only [statusDemo]; decide), fun _ => (by simp only [statusDemo]; decide), fun _ _ h => (by cases h)⟩, rfl, rfl, rfl⟩

section

local instance statusEnv : Env := env {}

/-- The texts and numbers of the status. -/
def texts (c : Ctx) : List String :=
  match dumpStatus statusDemo c with
  | .ok (j, _) => (flat j).map fun
    | .inl t => String.ofList (t.map fun (b : UInt8) => Char.ofNat b.toNat)
    | .inr n => toString n
  | .error _ => []

/-- Two peers are connected, and an address has been learnt from the second one. -/
example : after duo [] (learning ++ [.tick 5]) (fun c => decide (texts c = [
    "uptime", "5005", "interface", "fastd0", "statistics", "peers",
    "0202020202020202020202020202020202020202020202020202020202020202", "name", "address", "192.0.2.1:1000", "connection", "established", "5", "method", "m", "statistics", "mac_addresses", "0303030303030303030303030303030303030303030303030303030303030303",
    "name", "address", "192.0.2.1:1000", "connection", "established", "5", "method", "m", "statistics", "mac_addresses", "02:00:00:00:00:09"])) = true := by
  decide +kernel

end

end Demo

example : dumpThread [some 2, some 0, some 3] [1, 2, 3, 4, 5] [] = some [1, 2, 3, 4, 5] ∧
    dumpThread [some 2, none] [1, 2, 3, 4, 5] [] = some [1, 2] := by decide

end Fastd.Daemon
