import Verif.Spec.Status
import Verif.Shell.EnvLemmas
import Verif.Props.Mac
import Verif.Props.Shutdown

/-!
# Lemmas about the status
-/

namespace Fastd.Daemon

open Fastd.Log (Res str)
open Fastd.ShellEnv (Sys decimal cstr)
open Fastd.ShellEnv.Spec (Decimal Sane)

set_option linter.unusedSectionVars false

/-! ### Texts -/

theorem snprintf_text {buf t : Bytes} (h : t.length < buf.length) :
    Log.snprintf buf 0 buf.length t = .ok (t ++ 0 :: buf.drop (t.length + 1), t.length) := by
  unfold Log.snprintf
  rw [if_neg (by omega)]
  rw [List.take_of_length_le (by omega)]
  rw [ShellEnv.writeAt_zero (by simp; omega)]
  show Res.ok _ = _
  simp

theorem dump_text {buf t : Bytes} (h : t.length < buf.length) (h0 : (0 : UInt8) ∉ t) :
    (Log.snprintf buf 0 buf.length t >>= fun x => cstr x.1) = .ok t := by
  rw [snprintf_text h]
  exact ShellEnv.cstr_text h0 _

theorem dumpAddr_ok {st : StatusEnv} (hs : Sane st.sys) (hz : st.Sizes) (a : Addr) :
    ∃ t, AddrDenotes st.sys a t ∧ dumpAddr st a = .ok t := by
  have hd : ∀ p : UInt16, (decimal p.toNat).length ≤ 5 := fun p =>
    ShellEnv.decimal_length (by decide) (Nat.lt_trans p.toNat_lt (by decide))
  have key : ∀ t : Bytes, AddrDenotes st.sys a t → t.length < 72 → 0 ∉ t →
      (addrText st.sys a = .any ∧ t = str "any" ∨ addrText st.sys a = .text (some t)) →
      ∃ t, AddrDenotes st.sys a t ∧ dumpAddr st a = .ok t := by
    intro t h1 h2 h3 h4
    refine ⟨t, h1, ?_⟩
    have hl : t.length < st.addrBuf.length := by rw [hz.addr]; exact h2
    unfold dumpAddr
    rcases h4 with ⟨h4, rfl⟩ | h4
    · rw [h4]
      exact dump_text hl h3
    · rw [h4]
      unfold Log.snprintAddr Log.snprintfSafe
      simp only []
      rw [snprintf_text hl]
      exact ShellEnv.cstr_text h3 _
  have n58 : (0 : UInt8) ∉ str ":" := by decide
  have n91 : (0 : UInt8) ∉ str "[" := by decide
  have n93 : (0 : UInt8) ∉ str "]:" := by decide
  have n37 : (0 : UInt8) ∉ str "%" := by decide
  have l58 : (str ":").length = 1 := rfl
  have l91 : (str "[").length = 1 := rfl
  have l93 : (str "]:").length = 2 := rfl
  have l37 : (str "%").length = 1 := rfl
  cases a with
  | unspec port => exact key _ .any (by decide) (by decide) (.inl ⟨rfl, rfl⟩)
  | v4 ip port =>
    obtain ⟨h1, h2⟩ := hs.ntop4 ip.toList
    have h3 := hd port
    refine key _ (.v4 (ShellEnv.decimal_spec _)) ?_ ?_ (.inr ?_)
    · simp only [List.length_append]; omega
    · simp only [List.mem_append, not_or]
      exact ⟨⟨h2, n58⟩, ShellEnv.decimal_no_nul _⟩
    · show (if _ then _ else _) = _
      rw [if_pos (by omega)]
  | v6 ip port flow scope =>
    obtain ⟨h1, h2⟩ := hs.ntop6 ip.toList
    have h3 := hd port
    have plain : (if linkLocal ip then st.sys.ifname scope else none) = none →
        ∃ t, AddrDenotes st.sys (.v6 ip port flow scope) t ∧ dumpAddr st (.v6 ip port flow scope) = .ok t := by
      intro hn
      refine key _ (.v6 (ShellEnv.decimal_spec _) ?_) ?_ ?_ (.inr ?_)
      · cases hl : linkLocal ip with
        | false => exact .inl rfl
        | true => rw [hl] at hn; exact .inr hn
      · simp only [List.length_append]; omega
      · simp only [List.mem_append, not_or]
        exact ⟨⟨⟨n91, h2⟩, n93⟩, ShellEnv.decimal_no_nul _⟩
      · show (if _ then _ else _) = _
        rw [if_pos (by omega), hn]
    cases hn : (if linkLocal ip then st.sys.ifname scope else none) with
    | none => exact plain hn
    | some nm =>
      have hl : linkLocal ip = true := by
        cases hl : linkLocal ip with
        | true => rfl
        | false => rw [hl] at hn; cases hn
      have hn' : st.sys.ifname scope = some nm := by rw [hl] at hn; exact hn
      obtain ⟨h4, h5⟩ := hs.ifname scope nm hn'
      refine key _ (.scoped (ShellEnv.decimal_spec _) hl hn') ?_ ?_ (.inr ?_)
      · simp only [List.length_append]; omega
      · simp only [List.mem_append, not_or]
        exact ⟨⟨⟨⟨⟨n91, h2⟩, n37⟩, h5⟩, n93⟩, ShellEnv.decimal_no_nul _⟩
      · show (if _ then _ else _) = _
        rw [if_pos (by omega), hn]

theorem fmt02x_no_nul (b : UInt8) : (0 : UInt8) ∉ Util.fmt02x b ∧ Log.fmt02x b = Util.fmt02x b := by
  revert b
  exact fun b => Util.byte_cases (fun b => (0 : UInt8) ∉ Util.fmt02x b ∧ Log.fmt02x b = Util.fmt02x b) (by decide +kernel) b

theorem hexdump_no_nul (k : Bytes) : (0 : UInt8) ∉ Util.hexdump k := by
  unfold Util.hexdump
  rw [List.mem_flatMap]
  rintro ⟨b, _, hb⟩
  exact (fmt02x_no_nul b).1 hb

theorem dumpKey_ok {st : StatusEnv} (hz : st.Sizes) {k : Key} (hk : k.length = 32) :
    dumpKey st k = .ok (Util.hexdump k) := by
  unfold dumpKey
  refine dump_text ?_ (hexdump_no_nul k)
  rw [(Util.C51_print k hk).1, hz.key]
  decide

theorem dumpMac_ok {st : StatusEnv} (hz : st.Sizes) {mac : Bytes} (hm : mac.length = 6) :
    dumpMac st mac = .ok (macText mac) := by
  match mac, hm with
  | [a, b, c, d, e, f], _ =>
    have ht : Log.fmt02x a ++ str ":" ++ Log.fmt02x b ++ str ":" ++ Log.fmt02x c ++ str ":" ++ Log.fmt02x d ++ str ":" ++
        Log.fmt02x e ++ str ":" ++ Log.fmt02x f = macText [a, b, c, d, e, f] := by
      simp only [(fmt02x_no_nul _).2, macText, List.map_cons, List.map_nil]
      simp [List.intercalate]
    unfold dumpMac
    show (Log.snprintf st.ethBuf 0 st.ethBuf.length (Log.fmt02x a ++ str ":" ++ Log.fmt02x b ++ str ":" ++ Log.fmt02x c ++
      str ":" ++ Log.fmt02x d ++ str ":" ++ Log.fmt02x e ++ str ":" ++ Log.fmt02x f) >>= fun x => cstr x.1) = _
    rw [← ht]
    refine dump_text ?_ ?_
    · rw [hz.eth]
      show 17 < 18
      omega
    · have n58 : (0 : UInt8) ∉ str ":" := by decide
      simp only [(fmt02x_no_nul _).2, List.mem_append, not_or]
      simp [(fmt02x_no_nul _).1, n58]

/-! ### Objects -/

theorem objAdd_new {l : List (Bytes × Json)} {k : Bytes} {v : Json} (h : k ∉ l.map (·.1)) : objAdd l k v = l ++ [(k, v)] := by
  induction l with
  | nil => rfl
  | cons x l ih =>
    obtain ⟨k', v'⟩ := x
    simp only [List.map_cons, List.mem_cons, not_or] at h
    unfold objAdd
    rw [if_neg (fun e => h.1 e.symm), ih h.2]
    rfl

/-! ### MAC addresses have six bytes -/

variable [Env]

theorem mac_length {c : Ctx} (h : Reach anyEvent c) : ∀ e ∈ c.eth, e.addr.length = 6 := by
  induction h with
  | start h1 h2 hs => rw [C21_start hs]; intro e he; cases he
  | @step e c c' hr hp _ he ih =>
    obtain ⟨⟨_, l, hl, _⟩, _⟩ := bl_handle e c () c' hr.swing.1 out_none he
    intro e hm
    rcases ((C21_step hr he hl e).1 hm).1 with hs | hs
    · obtain ⟨d, h1, h2, _⟩ := hs.frame
      rw [h2, List.length_take, List.length_drop]
      omega
    · exact ih e hs.1

/-! ### Objects made of different keys -/

theorem get_mk {l : List (Bytes × Json)} {k : Bytes} : (Json.obj l).get k = (l.find? (·.1 = k)).map (·.2) := rfl

/-! ### The parts of the status -/

theorem get_eq (c : Ctx) : (get : M Ctx) c = .ok (c, c) := rfl

theorem bindOk {α β : Type} {m : M α} {f : α → M β} {c c' : Ctx} {a : α} (h : m c = .ok (a, c')) : (m >>= f) c = f a c' := by
  show M.bind m f c = _
  unfold M.bind
  rw [h]

theorem dumpMacs_ok {st : StatusEnv} (hz : st.Sizes) (i : Nat) (c : Ctx) (es : List Eth) (he : ∀ e ∈ es, e.addr.length = 6) :
    ∀ l, dumpMacs st i es l c =
      .ok (l ++ (es.filter (·.peer = some i)).map fun e => .str (macText (e.addr.take 6)), c) := by
  induction es with
  | nil => intro l; simp [dumpMacs]; rfl
  | cons e es ih =>
    intro l
    have ih := ih fun e h => he e (List.mem_cons_of_mem _ h)
    have hl := he e List.mem_cons_self
    unfold dumpMacs
    by_cases hp : e.peer = some i
    · rw [if_neg (by simpa using hp)]
      rw [dumpMac_ok hz hl]
      rw [bindOk (show (ofRes (Res.ok (macText e.addr)) : M Bytes) c = .ok (macText e.addr, c) from rfl)]
      rw [ih]
      rw [List.filter_cons_of_pos (by simpa using hp), List.map_cons, List.take_of_length_le (by omega)]
      simp
    · rw [if_pos hp, ih, List.filter_cons_of_neg (by simpa using hp)]

theorem sessionValid_ok {c : Ctx} {s : Session} (ha : Alive c s) : sessionValid s c = .ok (validNow c s, c) := by
  unfold sessionValid validNow
  cases hm : s.method with
  | none => rfl
  | some m =>
    cases hh : s.mstate with
    | none => rfl
    | some h =>
      obtain ⟨o, ho⟩ := ha h hh
      simp only [ho]
      rw [bindOk (show getObj h c = .ok (o, c) by unfold getObj; rw [bindOk (get_eq c), ho]; rfl)]
      rfl

theorem useOldSession_ok {S : Prop} {x y z : Nat → Prop} {c : Ctx} (h : Inv S x y z c) {p : Peer} (hp : p ∈ c.peers) (hx : ¬ x p.id)
    (he : p.state = .established) : useOldSession p c = .ok (useOldNow c p, c) := by
  obtain ⟨m, k, o, hm, hk, ho⟩ := h.estSess hp hx he
  have hi : isInitiator p.sess c = .ok (initiatorNow c p.sess, c) := by
    unfold isInitiator initiatorNow
    rw [hm, hk]
    simp only [ho]
    rw [bindOk (show deref (some m) c = .ok (m, c) from rfl), bindOk (show deref (some k) c = .ok (k, c) from rfl)]
    rw [bindOk (show getObj k c = .ok (o, c) by unfold getObj; rw [bindOk (get_eq c), ho]; rfl)]
    rfl
  unfold useOldSession
  rw [bindOk hi]
  unfold useOldNow
  cases initiatorNow c p.sess with
  | false => rfl
  | true => rw [if_pos rfl, sessionValid_ok (h.aliveO hp), Bool.true_and]

/-- Adding keys to an object. -/
theorem get_objAdd (l : List (Bytes × Json)) (k k' : Bytes) (v : Json) :
    (Json.obj (objAdd l k v)).get k' = if k' = k then some v else (Json.obj l).get k' := by
  induction l with
  | nil =>
    by_cases h : k' = k
    · subst h; simp [objAdd, Json.get]
    · have h' : ¬ k = k' := fun e => h e.symm
      rw [if_neg h]; simp [objAdd, Json.get, h']
  | cons x l ih =>
    obtain ⟨k1, v1⟩ := x
    unfold objAdd
    by_cases h1 : k1 = k
    · subst h1
      rw [if_pos rfl]
      by_cases h : k' = k1
      · subst h; simp [Json.get]
      · have h' : ¬ k1 = k' := fun e => h e.symm
        rw [if_neg h]; simp [Json.get, h']
    · rw [if_neg h1]
      by_cases h : k1 = k'
      · subst h; rw [if_neg h1]; simp [Json.get]
      · simp only [Json.get, List.find?_cons, h, decide_false] at ih ⊢
        exact ih

theorem inUse {S : Prop} {x y z : Nat → Prop} {c : Ctx} (h : Inv S x y z c) {p : Peer} (hp : p ∈ c.peers) (hx : ¬ x p.id)
    (he : p.state = .established) : ∃ m, InUse c p m ∧ (chosen c p).method = some m := by
  obtain ⟨m, k, o, hm, -, -, -⟩ := useOld_session h hp hx he
  refine ⟨m, ?_, hm⟩
  unfold InUse
  simp only [initiated_iff, sessOk_iff]
  cases hu : useOldNow c p with
  | true =>
    rw [hu, if_pos rfl] at hm
    unfold useOldNow at hu
    rw [Bool.and_eq_true] at hu
    exact .inl ⟨hu.1, hu.2, hm⟩
  | false =>
    rw [hu] at hm
    unfold useOldNow at hu
    refine .inr ⟨fun h => ?_, hm⟩
    rw [h.1, h.2] at hu
    cases hu

theorem dumpConnection_ok {st : StatusEnv} (hz : st.Sizes) {c : Ctx} (h : Reach anyEvent c) {p : Peer} (hp : p ∈ c.peers)
    (he : p.state = .established) : ∃ j, dumpConnection st p c = .ok (j, c) ∧ IsConnection st c p j := by
  have hI : Inv False nobody nobody nobody c := h.inv fun s => s.elim
  obtain ⟨m, hm, hc⟩ := inUse hI hp (fun h => h) he
  have hcur : currentMethod p c = .ok (some m, c) := by
    unfold currentMethod
    rw [if_neg (by simp [Peer.isEstablished, he]), bindOk (useOldSession_ok hI hp (fun h => h) he)]
    show Except.ok (_, c) = _
    rw [← hc]
    unfold chosen
    cases useOldNow c p <;> rfl
  unfold dumpConnection
  rw [bindOk (get_eq c)]
  simp only []
  rw [bindOk hcur]
  by_cases ht : Env.mode = .tap
  · rw [if_pos ht, bindOk (dumpMacs_ok hz p.id c c.eth (mac_length h) [])]
    refine ⟨_, rfl, ?_, ⟨m, hm, ?_⟩, ?_, fun _ => ?_, fun hn => absurd ht hn⟩ <;>
      simp (config := { decide := true }) only [get_objAdd, if_true, if_false, List.nil_append, Option.map_some, strOrNull]
  · rw [if_neg ht]
    refine ⟨_, rfl, ?_, ⟨m, hm, ?_⟩, ?_, fun h => absurd h ht, fun _ => ?_⟩ <;>
      simp (config := { decide := true }) only [get_objAdd, if_true, if_false, Option.map_some, strOrNull]

theorem dumpPeer_ok {st : StatusEnv} (hs : Sane st.sys) (hz : st.Sizes) {c : Ctx} (h : Reach anyEvent c) {p : Peer} (hp : p ∈ c.peers) :
    ∃ j, dumpPeer st p c = .ok (j, c) ∧ IsPeer st c p j := by
  obtain ⟨t, ht, ha⟩ := dumpAddr_ok hs hz p.addr
  unfold dumpPeer
  rw [ha, bindOk (show (ofRes (Res.ok t) : M Bytes) c = .ok (t, c) from rfl)]
  have hsh0 : ∀ b, Env.sharedIface = b → Env.sharedIface = !b → False := fun b h1 h2 => by rw [h1] at h2; cases b <;> cases h2
  cases hsh : Env.sharedIface <;> by_cases he : p.state = .established
  · obtain ⟨k, hk, hk'⟩ := dumpConnection_ok hz h hp he
    rw [if_pos (by simp [Peer.isEstablished, he]), bindOk hk]
    refine ⟨_, rfl, ?_, ⟨t, ht, ?_⟩, fun _ => ?_, fun hn => (hsh0 _ hsh hn).elim, fun _ => ⟨k, ?_, hk'⟩, fun hn => absurd he hn⟩ <;>
      simp (config := { decide := true }) only [get_objAdd, if_true, if_false]
    cases p.iface <;> rfl
  · rw [if_neg (by simp [Peer.isEstablished, he])]
    refine ⟨_, rfl, ?_, ⟨t, ht, ?_⟩, fun _ => ?_, fun hn => (hsh0 _ hsh hn).elim, fun h => absurd h he, fun _ => ?_⟩ <;>
      simp (config := { decide := true }) only [get_objAdd, if_true, if_false]
    cases p.iface <;> rfl
  · obtain ⟨k, hk, hk'⟩ := dumpConnection_ok hz h hp he
    rw [if_pos (by simp [Peer.isEstablished, he]), bindOk hk]
    refine ⟨_, rfl, ?_, ⟨t, ht, ?_⟩, fun hn => (hsh0 _ hsh hn).elim, fun _ => ?_, fun _ => ⟨k, ?_, hk'⟩, fun hn => absurd he hn⟩ <;>
      simp (config := { decide := true }) only [get_objAdd, if_true, if_false]
  · rw [if_neg (by simp [Peer.isEstablished, he])]
    refine ⟨_, rfl, ?_, ⟨t, ht, ?_⟩, fun hn => (hsh0 _ hsh hn).elim, fun _ => ?_, fun h => absurd h he, fun _ => ?_⟩ <;>
      simp (config := { decide := true }) only [get_objAdd, if_true, if_false]

/-- The keys of peers are different. -/
theorem hexdump_inj {k k' : Key} (h : k.length = 32) (h' : k'.length = 32) (he : Util.hexdump k = Util.hexdump k') : k = k' := by
  have h1 := Util.C51_roundtrip k h
  rw [he, Util.C51_roundtrip k' h'] at h1
  exact (Option.some.inj h1).symm

theorem dumpPeers_ok {st : StatusEnv} (hs : Sane st.sys) (hz : st.Sizes) {c : Ctx} (h : Reach anyEvent c) (ps : List Peer) :
    (∀ p ∈ ps, p ∈ c.peers) → (ps.map (·.key)).Nodup → ∀ l : List (Bytes × Json),
      (∀ kv ∈ l, ∀ p ∈ ps, kv.1 ≠ Util.hexdump p.key) → ∃ l', dumpPeers st ps l c = .ok (l ++ l', c) ∧
        List.Forall₂ (fun p kv => kv.1 = Util.hexdump p.key ∧ IsPeer st c p kv.2) (ps.filter (·.isEnabled)) l' := by
  have hI : Inv False nobody nobody nobody c := h.inv fun s => s.elim
  induction ps with
  | nil => intro _ _ l _; exact ⟨[], by simp [dumpPeers]; rfl, .nil⟩
  | cons p ps ih =>
    intro hm hn l hl
    rw [List.map_cons, List.nodup_cons] at hn
    have hp := hm p List.mem_cons_self
    unfold dumpPeers
    cases he : p.isEnabled with
    | false =>
      obtain ⟨l', h1, h2⟩ := ih (fun q hq => hm q (List.mem_cons_of_mem _ hq)) hn.2 l
        (fun kv hkv q hq => hl kv hkv q (List.mem_cons_of_mem _ hq))
      refine ⟨l', by simpa using h1, ?_⟩
      rw [List.filter_cons_of_neg (by simp [he])]
      exact h2
    | true =>
      rw [if_neg (by simp), dumpKey_ok hz (hI.peer p hp).key]
      rw [bindOk (show (ofRes (Res.ok (Util.hexdump p.key)) : M Bytes) c = .ok (_, c) from rfl)]
      obtain ⟨j, hj, hj'⟩ := dumpPeer_ok hs hz h hp
      rw [bindOk hj]
      rw [objAdd_new (fun hx => by
        obtain ⟨kv, h1, h2⟩ := List.mem_map.1 hx
        exact hl kv h1 p List.mem_cons_self h2)]
      obtain ⟨l', h1, h2⟩ := ih (fun q hq => hm q (List.mem_cons_of_mem _ hq)) hn.2 (l ++ [(Util.hexdump p.key, j)]) (by
        intro kv hkv q hq
        rcases List.mem_append.1 hkv with hkv | hkv
        · exact hl kv hkv q (List.mem_cons_of_mem _ hq)
        · rw [List.mem_singleton] at hkv
          subst hkv
          intro hx
          refine hn.1 ?_
          rw [hexdump_inj (hI.peer p hp).key (hI.peer q (hm q (List.mem_cons_of_mem _ hq))).key hx]
          exact List.mem_map_of_mem hq)
      refine ⟨(Util.hexdump p.key, j) :: l', by rw [h1]; simp, ?_⟩
      rw [List.filter_cons_of_pos (by simp [he])]
      exact .cons ⟨rfl, hj'⟩ h2

end Fastd.Daemon
