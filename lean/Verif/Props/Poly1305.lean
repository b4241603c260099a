import Verif.Method.Poly1305
import Verif.Method.CommonLemmas
import Verif.Props.Buffer

/-!
# Property C09: failed decryption leaves the packet intact
-/

namespace Fastd.Method

open Fastd.Buffer

/-- The header bytes of a packet whose header was accepted. -/
theorem handleHeader_bytes {s : Common} {now : Time} {pkt rest : List UInt8} {n : Nonce} {f : UInt8}
    {age : Int} (h : handleHeader s now pkt = .ok n f age rest) :
    pkt = packetType s.compat :: f :: (n.toList ++ rest) := by
  unfold handleHeader at h
  cases ht : takeHeader pkt with
  | none => simp [ht] at h
  | some q =>
    obtain ⟨t, f', n', r⟩ := q
    rw [ht] at h
    simp only at h
    split at h
    · rename_i hte
      cases hv : isNonceValid s now n' with
      | none => simp [hv] at h
      | some a =>
        simp only [hv, HeaderResult.ok.injEq] at h
        obtain ⟨rfl, rfl, rfl, rfl⟩ := h
        rcases pkt with _ | ⟨a0, _ | ⟨a1, _ | ⟨a2, _ | ⟨a3, _ | ⟨a4, _ | ⟨a5, _ | ⟨a6, _ | ⟨a7, r⟩⟩⟩⟩⟩⟩⟩⟩
        all_goals simp [takeHeader] at ht
        obtain ⟨rfl, rfl, hn, rfl⟩ := ht
        have : n'.toList = [a2, a3, a4, a5, a6, a7] := by
          rw [Vector.toList, ← hn]
        simp [hte, this]
    · simp at h

theorem polyRestore_data {b : Buf} {tag : List UInt8} {n : Nonce} {c : Bool} {d : Dec}
    (hw : b.WF) (h : polyRestore b tag n c = .ok d) :
    ∃ b', d = .null b' ∧ b'.WF ∧ b'.data = packetType c :: 0 :: (n.toList ++ (tag ++ b.data)) ∧
      b'.off + (tag.length + 8) = b.off ∧ b'.base.length = b.base.length := by
  have hn : n.toList.length = 6 := by simp
  unfold polyRestore at h
  by_cases h1 : tag.length ≤ b.off
  · obtain ⟨b1, e1, w1, l1, d1, o1, _⟩ := pushFrom_ok b tag hw h1
    rw [e1, bind_ok] at h
    by_cases h2 : n.toList.length ≤ b1.off
    · obtain ⟨b2, e2, w2, l2, d2, o2, _⟩ := pushFrom_ok b1 n.toList w1 h2
      rw [e2, bind_ok] at h
      by_cases h3 : ([0] : List UInt8).length ≤ b2.off
      · obtain ⟨b3, e3, w3, l3, d3, o3, _⟩ := pushFrom_ok b2 [0] w2 h3
        rw [e3, bind_ok] at h
        by_cases h4 : [packetType c].length ≤ b3.off
        · obtain ⟨b4, e4, w4, l4, d4, o4, _⟩ := pushFrom_ok b3 [packetType c] w3 h4
          rw [e4, bind_ok] at h
          simp only [pure, Res.ok.injEq] at h
          refine ⟨b4, h.symm, w4, ?_, ?_, by omega⟩
          · rw [d4, d3, d2, d1]; simp
          · simp at o3 o4 o2; omega
        · rw [(C08_push_from b3 _ w3).1 (by omega)] at h; cases h
      · rw [(C08_push_from b2 _ w2).1 (by omega)] at h; cases h
    · rw [(C08_push_from b1 _ w1).1 (by omega)] at h; cases h
  · rw [(C08_push_from b _ hw).1 (by omega)] at h; cases h

theorem polyFinish_not_null {s : Common} {now : Time} {n : Nonce} {age : Int} {out b' : Buf} :
    polyFinish s now n age out ≠ .ok (.null b') := by
  unfold polyFinish
  cases h : pull out KEYBYTES with
  | ok o =>
    rw [bind_ok]
    split <;> simp [pure]
  | abort => intro h; cases h
  | oob => intro h; cases h

/-- **C09.** Whenever decryption with the Poly1305 method returns NULL (too short, invalid session,
refused header, cipher failure or wrong tag - for every cipher, every authenticator and every session
state), the packet in the input buffer is byte for byte what it was, at the same place. -/
theorem C09_packet_restored (crypt : Crypt) (auth : List UInt8 → List UInt8 → List UInt8)
    (ivLen encHeadroom maxBuffer : Nat) (s : Common) (now : Time) (b : Buf) (st : List UInt8)
    (hw : b.WF) (b' : Buf)
    (h : polyDecrypt crypt auth ivLen encHeadroom maxBuffer s now b st = .ok (.null b')) :
    b'.data = b.data ∧ b'.off = b.off ∧ b'.len = b.len ∧ b'.WF ∧
      b'.base.length = b.base.length := by
  unfold polyDecrypt at h
  have triv : ∀ b', (Res.ok (Dec.null b) = Res.ok (Dec.null b')) →
      b'.data = b.data ∧ b'.off = b.off ∧ b'.len = b.len ∧ b'.WF ∧
      b'.base.length = b.base.length := by
    intro b' hb; cases hb; exact ⟨rfl, rfl, rfl, hw, rfl⟩
  split at h
  · exact triv _ h
  rename_i hlen
  split at h
  · exact triv _ h
  cases hh : handleHeader s now b.data with
  | bug => rw [hh] at h; cases h
  | refused => rw [hh] at h; exact triv _ h
  | ok n flags age rest =>
    rw [hh] at h
    simp only at h
    split at h
    · exact triv _ h
    rename_i hf
    have hf0 : flags = 0 := by simpa using hf
    have hbytes := handleHeader_bytes hh
    have hdl := data_length b hw
    unfold HEADBYTES TAGBYTES at hlen
    obtain ⟨b1, e1, w1, bb1, d1, o1⟩ := (C08_pull b 8 hw).2 (by omega)
    have hd1 := data_length b1 w1
    have hl1 : b1.data.length = b.len - 8 := by rw [d1]; simp; omega
    obtain ⟨b2, e2, w2, d2, o2, bb2⟩ := (C08_pull_to b1 16 w1).1 (by omega)
    rw [show pull b HEADBYTES = .ok b1 from e1, bind_ok,
      show pullTo b1 TAGBYTES = .ok (b1.data.take 16, b2) from e2, bind_ok] at h
    simp only [KEYBYTES] at h
    by_cases ho : 32 ≤ b2.off
    swap
    · rw [pushZero_eq, (C08_push_from b2 _ w2).1 (by simpa using Nat.lt_of_not_le ho)] at h
      cases h
    obtain ⟨b3, e3, w3, l3, d3, o3, n3, _⟩ := pushFrom_ok b2 (List.replicate 32 0) w2 (by simpa using ho)
    rw [pushZero_eq, e3, bind_ok] at h
    obtain ⟨b4, e4, w4, bb4, d4, o4⟩ := (C08_pull b3 32 w3).2 (by rw [d3]; simp)
    have hdata4 : b4.data = b2.data := by rw [d4, d3]; simp
    have hoff4 : b4.off = b.off + 24 := by simp at o3; omega
    have hrest : ∀ d, polyRestore b4 (b1.data.take 16) n s.compat = .ok d → d = .null b' →
        b'.data = b.data ∧ b'.off = b.off ∧ b'.len = b.len ∧ b'.WF ∧
          b'.base.length = b.base.length := by
      intro d hd hdn
      obtain ⟨b5, e5, w5, d5, o5, l5⟩ := polyRestore_data w4 hd
      rw [hdn] at e5
      cases e5
      have hdat : b'.data = b.data := by
        rw [d5, hdata4, d2, List.take_append_drop, d1]
        have h8 : b.data.drop 8 = rest := by
          conv_lhs => rw [hbytes]
          simp
        rw [h8]
        conv_rhs => rw [hbytes, hf0]
      refine ⟨hdat, ?_, ?_, w5, ?_⟩
      · have : (b1.data.take 16).length = 16 := by simp; omega
        omega
      · rw [← data_length _ w5, hdat, hdl]
      · rw [l5, bb4, l3, bb2, bb1]
    cases ha : alloc st maxBuffer b3.len (encHeadroom - 32) with
    | abort => rw [ha] at h; cases h
    | oob => rw [ha] at h; cases h
    | ok out =>
      rw [ha, bind_ok] at h
      cases hr : read b3.base b3.off (blockCount b3.len 16 * 16) with
      | abort => rw [hr] at h; cases h
      | oob => rw [hr] at h; cases h
      | ok inb =>
        rw [hr, bind_ok] at h
        cases hc : crypt (expandNonce n ivLen) inb with
        | none =>
          rw [hc] at h
          simp only [e4, bind_ok] at h
          exact hrest _ h rfl
        | some o =>
          rw [hc] at h
          simp only at h
          cases hwr : write out.base out.off o with
          | abort => rw [hwr] at h; cases h
          | oob => rw [hwr] at h; cases h
          | ok m =>
            rw [hwr, bind_ok, e4, bind_ok] at h
            cases hk : read m out.off 32 with
            | abort => simp only [hk] at h; cases h
            | oob => simp only [hk] at h; cases h
            | ok key =>
              simp only [hk, bind_ok] at h
              split at h
              · exact hrest _ h rfl
              · exact absurd h polyFinish_not_null

end Fastd.Method
