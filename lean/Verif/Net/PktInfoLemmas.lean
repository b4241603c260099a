import Verif.Net.PktInfo
import Verif.Spec.Cmsg

/-! # Lemmas about ancillary data -/

namespace Fastd.Net.PktInfo

open Fastd.Daemon (Addr linkLocal simplify widen)
open Fastd.Spec.Cmsg (Msg Writes WritesAll padding num bytes)

theorem leNum_eq (l : Bytes) : leNum l = num l := by
  induction l with
  | nil => rfl
  | cons b l ih => simp only [leNum, num, ih]

theorem leBytes_eq (k n : Nat) : leBytes k n = bytes k n := by
  induction k generalizing n with
  | zero => rfl
  | succ k ih => simp only [leBytes, bytes, ih]

theorem bytes_length (k n : Nat) : (bytes k n).length = k := by
  induction k generalizing n with
  | zero => rfl
  | succ k ih => simp only [bytes, List.length_cons, ih]

theorem num_bytes (k n : Nat) (h : n < 256 ^ k) : num (bytes k n) = n := by
  induction k generalizing n with
  | zero => simp at h; subst h; rfl
  | succ k ih =>
    have h' : n / 256 < 256 ^ k := by
      rw [Nat.pow_succ] at h
      exact Nat.div_lt_of_lt_mul (by omega)
    simp only [bytes, num, ih _ h', UInt8.toNat_ofNat']
    omega

theorem slice_at {pre mid post : Bytes} {off k : Nat} (ho : off = pre.length) (hk : k = mid.length) :
    slice (pre ++ (mid ++ post)) off k = .ok mid := by
  subst ho hk
  have : pre.length + mid.length ≤ (pre ++ (mid ++ post)).length := by simp only [List.length_append]; omega
  simp [slice, List.drop_append, List.take_append]

theorem slice_cases (ctl : Bytes) (off k : Nat) (h : off + k ≤ ctl.length) : ∃ l, slice ctl off k = .ok l := by
  exact ⟨_, if_pos h⟩

theorem nextHdr_safe (ctl : Bytes) (pos : Nat) (h : pos + 16 ≤ ctl.length) : ∃ q, nextHdr ctl pos = .ok q := by
  obtain ⟨l, hl⟩ := slice_cases ctl pos 8 (by omega)
  unfold nextHdr
  rw [hl]
  simp only
  by_cases h1 : leNum l < 16
  · exact ⟨none, if_pos h1⟩
  · rw [if_neg h1]
    by_cases h2 : ctl.length < pos + cmsgAlign (leNum l) + 16
    · exact ⟨none, if_pos h2⟩
    · rw [if_neg h2]
      obtain ⟨l', hl'⟩ := slice_cases ctl (pos + cmsgAlign (leNum l)) 8 (by omega)
      rw [hl']
      simp only
      by_cases h3 : ctl.length < pos + cmsgAlign (leNum l) + cmsgAlign (leNum l')
      · exact ⟨none, if_pos h3⟩
      · exact ⟨_, if_neg h3⟩

theorem control4_safe (ctl : Bytes) (bound : Addr) (d : Nat) : ∃ a, control4 ctl bound d = .ok a := by
  unfold control4
  by_cases h : ctl.length < d + 12
  · exact ⟨_, if_pos h⟩
  · rw [if_neg h]
    obtain ⟨l, hl⟩ := slice_cases ctl d 12 (by omega)
    rw [hl]; exact ⟨_, rfl⟩

theorem control6_safe (ctl : Bytes) (bound : Addr) (d : Nat) : ∃ a, control6 ctl bound d = .ok a := by
  unfold control6
  by_cases h : ctl.length < d + 20
  · exact ⟨_, if_pos h⟩
  · rw [if_neg h]
    obtain ⟨l, hl⟩ := slice_cases ctl d 20 (by omega)
    rw [hl]; exact ⟨_, rfl⟩

theorem controlLoop_safe (ctl : Bytes) (bound : Addr) (pos : Nat) : controlLoop ctl bound pos ≠ .outside := by
  rw [controlLoop]
  by_cases h : ctl.length < pos + 16
  · rw [if_pos h]; exact fun h => by cases h
  · rw [if_neg h]
    obtain ⟨l, hl⟩ := slice_cases ctl (pos + 8) 4 (by omega)
    obtain ⟨t, ht⟩ := slice_cases ctl (pos + 12) 4 (by omega)
    rw [hl, ht]
    simp only
    by_cases h4 : leNum l = ipprotoIp ∧ leNum t = ipPktinfo
    · rw [if_pos h4]
      obtain ⟨a, ha⟩ := control4_safe ctl bound (pos + 16)
      rw [ha]; exact fun h => by cases h
    · rw [if_neg h4]
      by_cases h6 : leNum l = ipprotoIpv6 ∧ leNum t = ipv6Pktinfo
      · rw [if_pos h6]
        obtain ⟨a, ha⟩ := control6_safe ctl bound (pos + 16)
        rw [ha]; exact fun h => by cases h
      · rw [if_neg h6]
        obtain ⟨q, hq⟩ := nextHdr_safe ctl pos (by omega)
        rw [hq]
        cases q with
        | none => exact fun h => by cases h
        | some q =>
          simp only
          by_cases hqp : q ≤ pos
          · rw [dif_pos hqp]; exact fun h => by cases h
          · rw [dif_neg hqp]; exact controlLoop_safe ctl bound q
termination_by ctl.length - pos
decreasing_by omega

/-- The length of a message with its padding -/
def space (m : Msg) : Nat := 16 + m.data.length + padding m.data.length

theorem writes_length {m : Msg} {l : Bytes} (h : Writes m l) : l.length = space m := by
  obtain ⟨pad, hp, rfl⟩ := h
  simp only [List.length_append, bytes_length, hp, space]

theorem cmsgAlign_eq (m : Msg) (h : m.Valid) : cmsgAlign (16 + m.data.length) = space m := by
  have := h.2.2
  simp only [cmsgAlign, space, padding]
  omega

theorem head_len {m : Msg} {l : Bytes} (hv : m.Valid) (h : Writes m l) (pre post : Bytes) :
    ∃ b, slice (pre ++ (l ++ post)) pre.length 8 = .ok b ∧ leNum b = 16 + m.data.length := by
  obtain ⟨pad, hp, rfl⟩ := h
  refine ⟨bytes 8 (16 + m.data.length), ?_, ?_⟩
  · rw [List.append_assoc, List.append_assoc, List.append_assoc, List.append_assoc]
    exact slice_at rfl (bytes_length _ _).symm
  · rw [leNum_eq, num_bytes]
    have := hv.2.2
    omega

theorem head_level {m : Msg} {l : Bytes} (hv : m.Valid) (h : Writes m l) (pre post : Bytes) :
    ∃ b, slice (pre ++ (l ++ post)) (pre.length + 8) 4 = .ok b ∧ leNum b = m.level := by
  obtain ⟨pad, hp, rfl⟩ := h
  refine ⟨bytes 4 m.level, ?_, ?_⟩
  · have : pre ++ (bytes 8 (16 + m.data.length) ++ bytes 4 m.level ++ bytes 4 m.type ++ m.data ++ pad ++ post) =
      (pre ++ bytes 8 (16 + m.data.length)) ++ (bytes 4 m.level ++ (bytes 4 m.type ++ m.data ++ pad ++ post)) := by
      simp only [List.append_assoc]
    rw [this]
    exact slice_at (by simp [bytes_length]) (bytes_length _ _).symm
  · rw [leNum_eq, num_bytes]; exact hv.1

theorem head_type {m : Msg} {l : Bytes} (hv : m.Valid) (h : Writes m l) (pre post : Bytes) :
    ∃ b, slice (pre ++ (l ++ post)) (pre.length + 12) 4 = .ok b ∧ leNum b = m.type := by
  obtain ⟨pad, hp, rfl⟩ := h
  refine ⟨bytes 4 m.type, ?_, ?_⟩
  · have : pre ++ (bytes 8 (16 + m.data.length) ++ bytes 4 m.level ++ bytes 4 m.type ++ m.data ++ pad ++ post) =
      (pre ++ bytes 8 (16 + m.data.length) ++ bytes 4 m.level) ++ (bytes 4 m.type ++ (m.data ++ pad ++ post)) := by
      simp only [List.append_assoc]
    rw [this]
    exact slice_at (by simp [bytes_length]) (bytes_length _ _).symm
  · rw [leNum_eq, num_bytes]; exact hv.2.1

theorem head_data {m : Msg} {l : Bytes} (h : Writes m l) (pre post : Bytes) :
    slice (pre ++ (l ++ post)) (pre.length + 16) m.data.length = .ok m.data := by
  obtain ⟨pad, hp, rfl⟩ := h
  have : pre ++ (bytes 8 (16 + m.data.length) ++ bytes 4 m.level ++ bytes 4 m.type ++ m.data ++ pad ++ post) =
    (pre ++ bytes 8 (16 + m.data.length) ++ bytes 4 m.level ++ bytes 4 m.type) ++ (m.data ++ (pad ++ post)) := by
    simp only [List.append_assoc]
  rw [this]
  exact slice_at (by simp [bytes_length]) rfl

/-- The loop goes on to the next message. -/
theorem next_last {m : Msg} {l : Bytes} (hv : m.Valid) (h : Writes m l) (pre : Bytes) : nextHdr (pre ++ (l ++ [])) pre.length = .ok none := by
  obtain ⟨b, hb, hn⟩ := head_len hv h pre []
  have hlen : (pre ++ (l ++ [])).length = pre.length + space m := by
    simp only [List.length_append, List.length_nil, writes_length h, Nat.add_zero]
  unfold nextHdr
  rw [hb]
  simp only
  rw [hn, if_neg (by omega), cmsgAlign_eq m hv, if_pos (by omega)]

theorem next_more {m m' : Msg} {l l' : Bytes} (hv : m.Valid) (h : Writes m l) (hv' : m'.Valid) (h' : Writes m' l') (pre post : Bytes) :
    nextHdr (pre ++ (l ++ (l' ++ post))) pre.length = .ok (some (pre.length + space m)) := by
  obtain ⟨b, hb, hn⟩ := head_len hv h pre (l' ++ post)
  have hlen : (pre ++ (l ++ (l' ++ post))).length = pre.length + space m + space m' + post.length := by
    simp only [List.length_append, writes_length h, writes_length h']; omega
  have hsp : 16 ≤ space m' := by simp only [space]; omega
  obtain ⟨b', hb', hn'⟩ := head_len hv' h' (pre ++ l) post
  rw [List.append_assoc, List.length_append, writes_length h] at hb'
  unfold nextHdr
  rw [hb]
  simp only
  rw [hn, if_neg (by omega), cmsgAlign_eq m hv, if_neg (by omega), hb']
  simp only
  rw [hn', cmsgAlign_eq m' hv', if_neg (by omega)]

theorem loop_other_last {m : Msg} {l : Bytes} (hv : m.Valid) (h : Writes m l) (ho : m.Other) (bound : Addr) (pre : Bytes) :
    controlLoop (pre ++ (l ++ [])) bound pre.length = .ok (.unspec 0) := by
  obtain ⟨b, hb, hn⟩ := head_level hv h pre []
  obtain ⟨t, ht, htn⟩ := head_type hv h pre []
  have hlen : (pre ++ (l ++ [])).length = pre.length + space m := by
    simp only [List.length_append, List.length_nil, writes_length h, Nat.add_zero]
  have hsp : 16 ≤ space m := by simp only [space]; omega
  rw [controlLoop, if_neg (by omega), hb, ht]
  simp only
  rw [hn, htn, if_neg (show ¬ (_ = ipprotoIp ∧ _ = ipPktinfo) from ho.1),
    if_neg (show ¬ (_ = ipprotoIpv6 ∧ _ = ipv6Pktinfo) from ho.2), next_last hv h]

theorem loop_other_more {m m' : Msg} {l l' : Bytes} (hv : m.Valid) (h : Writes m l) (hv' : m'.Valid) (h' : Writes m' l') (ho : m.Other)
    (bound : Addr) (pre post : Bytes) :
    controlLoop (pre ++ (l ++ (l' ++ post))) bound pre.length = controlLoop ((pre ++ l) ++ (l' ++ post)) bound (pre ++ l).length := by
  obtain ⟨b, hb, hn⟩ := head_level hv h pre (l' ++ post)
  obtain ⟨t, ht, htn⟩ := head_type hv h pre (l' ++ post)
  have hlen : (pre ++ (l ++ (l' ++ post))).length = pre.length + space m + space m' + post.length := by
    simp only [List.length_append, writes_length h, writes_length h']; omega
  have hsp : 16 ≤ space m := by simp only [space]; omega
  rw [controlLoop, if_neg (by omega), hb, ht]
  simp only
  rw [hn, htn, if_neg (show ¬ (_ = ipprotoIp ∧ _ = ipPktinfo) from ho.1),
    if_neg (show ¬ (_ = ipprotoIpv6 ∧ _ = ipv6Pktinfo) from ho.2), next_more hv h hv' h']
  simp only
  rw [dif_neg (by omega), List.append_assoc, List.length_append, writes_length h]

/-- No message with packet info -/
theorem loop_none (ms : List Msg) (ls : Bytes) (hw : WritesAll ms ls) (hv : ∀ m ∈ ms, m.Valid) (ho : ∀ m ∈ ms, m.Other) (bound : Addr)
    (pre : Bytes) : controlLoop (pre ++ ls) bound pre.length = .ok (.unspec 0) := by
  induction hw generalizing pre with
  | nil => rw [controlLoop, if_pos (by simp)]
  | @cons m l ms ls h hs ih =>
    have hvm := hv m (List.mem_cons_self ..)
    have hom := ho m (List.mem_cons_self ..)
    cases hs with
    | nil => exact loop_other_last hvm h hom bound pre
    | @cons m' l' ms' ls' h' hs' =>
      rw [loop_other_more hvm h (hv m' (by simp)) h' hom]
      exact ih (fun m hm => hv m (List.mem_cons_of_mem _ hm)) (fun m hm => ho m (List.mem_cons_of_mem _ hm)) (pre ++ l)

/-- Other messages before the first one with packet info are skipped. -/
theorem loop_skip (ms : List Msg) (m : Msg) (ms' : List Msg) (ls : Bytes) (hw : WritesAll (ms ++ m :: ms') ls) (hv : ∀ x ∈ ms ++ m :: ms', x.Valid)
    (ho : ∀ x ∈ ms, x.Other) (bound : Addr) (pre : Bytes) :
    ∃ p l q, Writes m l ∧ pre ++ ls = p ++ (l ++ q) ∧ controlLoop (pre ++ ls) bound pre.length = controlLoop (p ++ (l ++ q)) bound p.length := by
  induction ms generalizing pre ls with
  | nil =>
    cases hw with
    | cons h hs => exact ⟨pre, _, _, h, rfl, rfl⟩
  | cons x xs ih =>
    cases hw with
    | @cons _ l _ ls h hs =>
      have hvx := hv x (by simp)
      have hox := ho x (by simp)
      have hv2 : ∀ y ∈ xs ++ m :: ms', y.Valid := fun y hy => hv y (List.mem_cons_of_mem _ hy)
      obtain ⟨p, l2, q, h1, h2, h3⟩ := ih ls hs hv2 (fun y hy => ho y (List.mem_cons_of_mem _ hy)) (pre ++ l)
      refine ⟨p, l2, q, h1, by rw [← h2, List.append_assoc], ?_⟩
      rw [← h3]
      cases hxs : xs ++ m :: ms' with
      | nil => simp at hxs
      | cons y ys =>
        have hs : WritesAll (xs ++ m :: ms') ls := hs
        rw [hxs] at hs hv2
        cases hs with
        | @cons _ l' _ ls' h' hs' => exact loop_other_more hvx h (hv2 y (by simp)) h' hox bound pre ls'

theorem vec4_toList (v : Vector UInt8 4) : vec4 v.toList = v := by
  apply Vector.ext
  intro i hi
  simp [vec4]

theorem vec16_toList (v : Vector UInt8 16) : vec16 v.toList = v := by
  apply Vector.ext
  intro i hi
  simp [vec16]

theorem loop_v4 {l : Bytes} (i : Nat) (spec : Bytes) (hs : spec.length = 4) (a : Vector UInt8 4) (h : Writes (Spec.Cmsg.pktinfo4 i spec a.toList) l)
    (bound : Addr) (pre post : Bytes) : controlLoop (pre ++ (l ++ post)) bound pre.length = .ok (.v4 a (getPort bound)) := by
  have hd : (Spec.Cmsg.pktinfo4 i spec a.toList).data.length = 12 := by simp [Spec.Cmsg.pktinfo4, bytes_length, hs]
  have hv : (Spec.Cmsg.pktinfo4 i spec a.toList).Valid := by
    refine ⟨by simp [Spec.Cmsg.pktinfo4], by simp [Spec.Cmsg.pktinfo4], by omega⟩
  obtain ⟨b, hb, hn⟩ := head_level hv h pre post
  obtain ⟨t, ht, htn⟩ := head_type hv h pre post
  have hdat := head_data h pre post
  have hlen : (pre ++ (l ++ post)).length = pre.length + (16 + 12 + 4) + post.length := by
    simp only [List.length_append, writes_length h, space, hd, padding]; omega
  rw [hd] at hdat
  rw [controlLoop, if_neg (by omega), hb, ht]
  simp only
  rw [hn, htn, if_pos ⟨rfl, rfl⟩, control4, if_neg (by omega), hdat]
  simp only
  have : (Spec.Cmsg.pktinfo4 i spec a.toList).data.drop 8 = a.toList := by
    show (bytes 4 i ++ spec ++ a.toList).drop 8 = _
    rw [List.drop_append, List.drop_of_length_le (by simp [bytes_length, hs])]
    simp [bytes_length, hs]
  rw [this, vec4_toList]

theorem loop_v6 {l : Bytes} (i : Nat) (hi : i < 2 ^ 32) (a : Vector UInt8 16) (h : Writes (Spec.Cmsg.pktinfo6 a.toList i) l)
    (bound : Addr) (pre post : Bytes) :
    controlLoop (pre ++ (l ++ post)) bound pre.length = .ok (.v6 a (getPort bound) 0 (if linkLocal a then UInt32.ofNat i else 0)) := by
  have hd : (Spec.Cmsg.pktinfo6 a.toList i).data.length = 20 := by simp [Spec.Cmsg.pktinfo6, bytes_length]
  have hv : (Spec.Cmsg.pktinfo6 a.toList i).Valid := by
    refine ⟨by simp [Spec.Cmsg.pktinfo6], by simp [Spec.Cmsg.pktinfo6], by omega⟩
  obtain ⟨b, hb, hn⟩ := head_level hv h pre post
  obtain ⟨t, ht, htn⟩ := head_type hv h pre post
  have hdat := head_data h pre post
  have hlen : (pre ++ (l ++ post)).length = pre.length + (16 + 20 + 4) + post.length := by
    simp only [List.length_append, writes_length h, space, hd, padding]; omega
  rw [hd] at hdat
  have hne : ¬ ((Spec.Cmsg.pktinfo6 a.toList i).level = ipprotoIp ∧ (Spec.Cmsg.pktinfo6 a.toList i).type = ipPktinfo) := by
    rintro ⟨h, -⟩; cases h
  rw [controlLoop, if_neg (by omega), hb, ht]
  simp only
  rw [hn, htn, if_neg hne, if_pos ⟨rfl, rfl⟩, control6, if_neg (by omega), hdat]
  simp only
  have h1 : (Spec.Cmsg.pktinfo6 a.toList i).data.take 16 = a.toList := by
    show (a.toList ++ bytes 4 i).take 16 = _
    rw [List.take_append_of_le_length (by simp), List.take_of_length_le (by simp)]
  have h2 : (Spec.Cmsg.pktinfo6 a.toList i).data.drop 16 = bytes 4 i := by
    show (a.toList ++ bytes 4 i).drop 16 = _
    rw [List.drop_append, List.drop_of_length_le (by simp)]
    simp
  rw [h1, h2, vec16_toList, leNum_eq, num_bytes _ _ (by omega)]

theorem handle_eq (ctl : Bytes) (bound : Addr) : handleSocketControl ctl bound = controlLoop ctl bound 0 := by
  unfold handleSocketControl firstHdr
  by_cases h : 16 ≤ ctl.length
  · rw [if_pos h]
  · rw [if_neg h, controlLoop, if_pos (by omega)]

/-! ## Sending -/

theorem readAll_one (level type : Nat) (data : Bytes) (hl : level < 2 ^ 32) (ht : type < 2 ^ 32) (hd : data.length < 2 ^ 32) :
    Spec.Cmsg.readAll (cmsgHdr level type data.length ++ data) = some [⟨level, type, data⟩] := by
  have e : cmsgHdr level type data.length ++ data = bytes 8 (16 + data.length) ++ (bytes 4 level ++ (bytes 4 type ++ data)) := by
    simp only [cmsgHdr, cmsgLen, leBytes_eq, List.append_assoc]
  rw [e]
  have hlen : (bytes 8 (16 + data.length) ++ (bytes 4 level ++ (bytes 4 type ++ data))).length = 16 + data.length := by
    simp only [List.length_append, bytes_length]; omega
  have h1 : (bytes 8 (16 + data.length) ++ (bytes 4 level ++ (bytes 4 type ++ data))).take 8 = bytes 8 (16 + data.length) := by
    rw [List.take_append_of_le_length (by simp [bytes_length]), List.take_of_length_le (by simp [bytes_length])]
  have h2 : ((bytes 8 (16 + data.length) ++ (bytes 4 level ++ (bytes 4 type ++ data))).drop 8).take 4 = bytes 4 level := by
    rw [List.drop_append, List.drop_of_length_le (by simp [bytes_length])]
    simp [bytes_length, List.take_append]
  have h3 : ((bytes 8 (16 + data.length) ++ (bytes 4 level ++ (bytes 4 type ++ data))).drop 12).take 4 = bytes 4 type := by
    rw [List.drop_append, List.drop_of_length_le (by simp [bytes_length])]
    simp [bytes_length, List.drop_append, List.take_append]
  have h4 : (bytes 8 (16 + data.length) ++ (bytes 4 level ++ (bytes 4 type ++ data))).drop 16 = data := by
    rw [List.drop_append, List.drop_of_length_le (by simp [bytes_length])]
    simp [bytes_length, List.drop_append]
  rw [Spec.Cmsg.readAll, if_neg (by omega), h1, num_bytes _ _ (by omega), h2, h3, num_bytes _ _ hl, num_bytes _ _ ht]
  simp only
  rw [if_neg (by omega)]
  rw [show List.take (16 + data.length) (bytes 8 (16 + data.length) ++ (bytes 4 level ++ (bytes 4 type ++ data)))
    = (bytes 8 (16 + data.length) ++ (bytes 4 level ++ (bytes 4 type ++ data))) from List.take_of_length_le (by omega), h4]
  have h5 : (bytes 8 (16 + data.length) ++ (bytes 4 level ++ (bytes 4 type ++ data))).drop (16 + data.length + padding (16 + data.length)) = [] :=
    List.drop_of_length_le (by omega)
  rw [h5, Spec.Cmsg.readAll]
  rfl

end Fastd.Net.PktInfo
