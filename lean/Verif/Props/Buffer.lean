import Verif.Buffer.Buf

/-!
# Property C08: buffer operations
-/

namespace Fastd.Buffer

theorem bind_ok {α β : Type} (a : α) (f : α → Res β) : (Res.ok a >>= f) = f a := rfl

theorem alignto_spec (l : Nat) : l ≤ alignto l 16 ∧ alignto l 16 < l + 16 ∧ alignto l 16 % 16 = 0 := by
  unfold alignto blockCount; omega

theorem data_length (b : Buf) (h : b.WF) : b.data.length = b.len := by
  unfold Buf.WF at h; simp [Buf.data]; omega

/-- What a write changes. -/
theorem write_ok {m d : Bytes} {off : Nat} (h : off + d.length ≤ m.length) :
    ∃ m', write m off d = .ok m' ∧ m'.length = m.length ∧
      (∀ i, i < off ∨ off + d.length ≤ i → m'[i]? = m[i]?) ∧
      (∀ i, i < d.length → m'[off + i]? = d[i]?) ∧
      (m'.drop off).take d.length = d ∧
      (∀ o n, off + d.length ≤ o → (m'.drop o).take n = (m.drop o).take n) ∧
      (∀ o n, o + n ≤ off → (m'.drop o).take n = (m.drop o).take n) := by
  refine ⟨_, if_pos h, ?_, ?_, ?_, ?_, ?_, ?_⟩
  · simp; omega
  · intro i hi
    rcases hi with hi | hi
    · rw [List.getElem?_append_left (by simp; omega), List.getElem?_take_of_lt hi]
    · rw [List.getElem?_append_right (by simp; omega), List.getElem?_append_right (by simp; omega),
        List.getElem?_drop]
      congr 1
      simp; omega
  · intro i hi
    rw [List.getElem?_append_right (by simp; omega), List.getElem?_append_left (by simp; omega)]
    congr 1
    simp; omega
  · rw [List.drop_append]
    simp
    have : off - min off m.length = 0 := by omega
    rw [this]; simp
  · intro o n ho
    rw [List.drop_append, List.drop_append]
    have e1 : (List.take off m).drop o = [] := by
      apply List.drop_eq_nil_of_le; simp; omega
    have e2 : d.drop (o - (List.take off m).length) = [] := by
      apply List.drop_eq_nil_of_le; simp; omega
    rw [e1, e2, List.drop_drop]
    simp only [List.nil_append]
    congr 2
    simp; omega
  · intro o n ho
    rw [List.drop_append, List.take_append]
    have : n - ((List.take off m).drop o).length = 0 := by simp; omega
    rw [this]
    simp only [List.take_zero, List.append_nil]
    rw [List.drop_take, List.take_take]
    congr 1
    omega

/-! ## Push and pull -/

/-- **C08.** Pushing more than the headroom aborts; anything else succeeds, leaves the storage alone
and keeps the old data behind the new space. -/
theorem C08_push (b : Buf) (n : Nat) (h : b.WF) :
    (b.off < n → push b n = .abort) ∧
    (n ≤ b.off → ∃ b', push b n = .ok b' ∧ b'.WF ∧ b'.base = b.base ∧
      b'.data.length = n + b.data.length ∧ b'.data.drop n = b.data ∧ b'.off + n = b.off) := by
  unfold Buf.WF at h
  refine ⟨fun hn => if_pos hn, fun hn => ⟨_, if_neg (by unfold headroom; omega), ?_, rfl, ?_, ?_, ?_⟩⟩
  · simp only [Buf.WF]; omega
  · simp only [Buf.data, List.length_take, List.length_drop]; omega
  · simp only [Buf.data]
    rw [List.drop_take, List.drop_drop]
    congr 2 <;> omega
  · simp only []; omega

/-- **C08.** Pulling more than the data aborts; anything else removes exactly the first bytes. -/
theorem C08_pull (b : Buf) (n : Nat) (h : b.WF) :
    (b.data.length < n → pull b n = .abort) ∧
    (n ≤ b.data.length → ∃ b', pull b n = .ok b' ∧ b'.WF ∧ b'.base = b.base ∧
      b'.data = b.data.drop n ∧ b'.off = b.off + n) := by
  rw [data_length b h]
  unfold Buf.WF at h
  refine ⟨fun hn => if_pos hn, fun hn => ⟨_, if_neg (by omega), ?_, rfl, ?_, rfl⟩⟩
  · simp only [Buf.WF]; omega
  · simp only [Buf.data]
    rw [List.drop_take, List.drop_drop]

/-- **C08.** Pushing and then pulling the same amount restores the buffer completely. -/
theorem C08_push_pull (b : Buf) (n : Nat) (hn : n ≤ b.off) :
    (push b n >>= fun b' => pull b' n) = .ok b := by
  unfold push headroom
  rw [if_neg (by omega), bind_ok]
  unfold pull
  rw [if_neg (by simp)]
  simp only [Nat.add_sub_cancel]
  congr
  omega

/-- **C08.** Pulling and then pushing the same amount restores the buffer completely. -/
theorem C08_pull_push (b : Buf) (n : Nat) (h : b.WF) (hn : n ≤ b.data.length) :
    (pull b n >>= fun b' => push b' n) = .ok b := by
  rw [data_length b h] at hn
  unfold pull
  rw [if_neg (by omega), bind_ok]
  unfold push headroom
  rw [if_neg (by simp)]
  simp only [Nat.add_sub_cancel]
  congr
  omega

/-- Pushing bytes: shared by `push_from` and `push_zero`. -/
theorem pushFrom_ok (b : Buf) (d : Bytes) (h : b.WF) (hn : d.length ≤ b.off) :
    ∃ b', pushFrom b d = .ok b' ∧ b'.WF ∧ b'.base.length = b.base.length ∧
      b'.data = d ++ b.data ∧ b'.off + d.length = b.off ∧ b'.len = b.len + d.length ∧
      ∀ i, i < b.off - d.length ∨ b.off ≤ i → b'.base[i]? = b.base[i]? := by
  unfold Buf.WF at h
  unfold pushFrom push headroom
  rw [if_neg (by omega), bind_ok]
  obtain ⟨m, h1, h2, h3, h4, h5, h6, h7⟩ := write_ok (m := b.base) (d := d)
    (off := b.off - d.length) (by omega)
  simp only [h1, bind_ok]
  refine ⟨_, rfl, ?_, h2, ?_, ?_, rfl, ?_⟩
  · simp only [Buf.WF]; omega
  · simp only [Buf.data]
    rw [Nat.add_comm b.len, List.take_add, h5, List.drop_drop]
    have : b.off - d.length + d.length = b.off := by omega
    rw [this, h6 b.off b.len (by omega)]
  · simp only []; omega
  · intro i hi
    exact h3 i (by omega)

/-- **C08.** `push_from` puts the given bytes in front of the data, changes nothing else in the
storage and never writes outside of it; it aborts iff there is not enough headroom. -/
theorem C08_push_from (b : Buf) (d : Bytes) (h : b.WF) :
    (b.off < d.length → pushFrom b d = .abort) ∧
    (d.length ≤ b.off → ∃ b', pushFrom b d = .ok b' ∧ b'.WF ∧ b'.base.length = b.base.length ∧
      b'.data = d ++ b.data ∧
      ∀ i, i < b.off - d.length ∨ b.off ≤ i → b'.base[i]? = b.base[i]?) := by
  constructor
  · intro hn
    unfold pushFrom push headroom
    rw [if_pos hn]; rfl
  · intro hn
    obtain ⟨b', h1, h2, h3, h4, _, _, h6⟩ := pushFrom_ok b d h hn
    exact ⟨b', h1, h2, h3, h4, h6⟩

theorem pushZero_eq (b : Buf) (n : Nat) : pushZero b n = pushFrom b (List.replicate n 0) := by
  unfold pushZero pushFrom; simp

/-- **C08.** `push_zero` puts zero bytes in front of the data. -/
theorem C08_push_zero (b : Buf) (n : Nat) (h : b.WF) (hn : n ≤ b.off) :
    ∃ b', pushZero b n = .ok b' ∧ b'.WF ∧ b'.base.length = b.base.length ∧
      b'.data = List.replicate n 0 ++ b.data := by
  obtain ⟨b', h1, h2, h3, h4, _⟩ := pushFrom_ok b (List.replicate n 0) h (by simpa using hn)
  exact ⟨b', by rw [pushZero_eq, h1], h2, h3, h4⟩

/-- **C08.** `pull_to` hands out the first bytes and removes them; if the data is too short it does
not return (it aborts, or reads the storage beyond the data first). -/
theorem C08_pull_to (b : Buf) (n : Nat) (h : b.WF) :
    (n ≤ b.data.length → ∃ b', pullTo b n = .ok (b.data.take n, b') ∧ b'.WF ∧
      b'.data = b.data.drop n ∧ b'.off = b.off + n ∧ b'.base = b.base) ∧
    (b.data.length < n → ∀ r, pullTo b n ≠ .ok r) := by
  constructor
  · intro hn
    obtain ⟨b', h1, h2, h3, h4, h5⟩ := (C08_pull b n h).2 hn
    rw [data_length b h] at hn
    unfold Buf.WF at h
    refine ⟨b', ?_, h2, h4, h5, h3⟩
    unfold pullTo read
    rw [if_pos (by omega), bind_ok, h1, bind_ok]
    simp only [Buf.data, List.take_take, Nat.min_eq_left hn]
    rfl
  · intro hn r
    unfold pullTo read
    split
    · rw [bind_ok, (C08_pull b n h).1 hn]
      simp [bind, Res.bind]
    · simp [bind, Res.bind]

/-! ## Duplicating, aligning, padding -/

/-- **C08.** Duplicating keeps the bytes, gives exactly the requested headroom and does not write
outside the new buffer's storage, which must have the configured size; it aborts iff the configured
buffer size is too small. -/
theorem C08_dup (b : Buf) (storage : Bytes) (mb hr : Nat) (h : b.WF) (hs : mb ≤ storage.length) :
    (mb < alignto (hr + b.len) 16 → dup b storage mb hr = .abort) ∧
    (alignto (hr + b.len) 16 ≤ mb → ∃ b', dup b storage mb hr = .ok b' ∧ b'.WF ∧
      b'.data = b.data ∧ b'.off = hr ∧ b'.base.length = storage.length) := by
  constructor
  · intro ho
    unfold dup alloc
    rw [if_pos ho]; rfl
  · intro ho
    unfold Buf.WF at h
    have ha := alignto_spec (hr + b.len)
    unfold dup alloc read
    rw [if_neg (by omega), bind_ok, if_pos h, bind_ok]
    have hl : ((b.base.drop b.off).take b.len).length = b.len := data_length b h
    obtain ⟨m, h1, h2, _, _, h5, _⟩ := write_ok (m := storage)
      (d := (b.base.drop b.off).take b.len) (off := hr) (by rw [hl]; omega)
    simp only [h1, bind_ok]
    rw [hl] at h5
    refine ⟨_, rfl, ?_, ?_, rfl, h2⟩
    · simp only [Buf.WF]; omega
    · simp only [Buf.data]; exact h5

/-- **C08.** Aligning keeps the bytes and gives at least the requested headroom, with the excess a
multiple of 16 (so that data that is `minHeadroom` bytes further down is 16-byte aligned). -/
theorem C08_align (b : Buf) (storage : Bytes) (mb hr : Nat) (h : b.WF) (hs : mb ≤ storage.length)
    (hfit : alignto (hr + b.len) 16 ≤ mb) :
    ∃ b', align b storage mb hr = .ok b' ∧ b'.WF ∧ b'.data = b.data ∧ hr ≤ headroom b' ∧
      (headroom b' - hr) % 16 = 0 := by
  unfold align
  simp only []
  split
  · rename_i hc
    refine ⟨b, rfl, h, rfl, ?_, ?_⟩
    · omega
    · omega
  · obtain ⟨b', h1, h2, h3, h4, _⟩ := (C08_dup b storage mb hr h hs).2 hfit
    refine ⟨b', h1, h2, h3, ?_, ?_⟩
    · unfold headroom; omega
    · unfold headroom; omega

/-- **C08.** Zero padding does not write outside the storage (whose size is a multiple of 16), does
not change the data, and afterwards all bytes up to the next 16-byte boundary are zero. -/
theorem C08_zero_pad (b : Buf) (h : b.WF) (hs : b.base.length % 16 = 0) :
    ∃ b', zeroPad b = .ok b' ∧ b'.WF ∧ b'.data = b.data ∧ b'.off = b.off ∧
      b'.base.length = b.base.length ∧
      ∀ i, b.off + b.len ≤ i → i < alignto (b.off + b.len) 16 → b'.base[i]? = some 0 := by
  unfold Buf.WF at h
  have ha := alignto_spec (b.off + b.len)
  unfold zeroPad
  simp only []
  obtain ⟨m, h1, h2, h3, h4, h5, h6, h7⟩ := write_ok (m := b.base) (off := b.off + b.len)
    (d := List.replicate (alignto (b.off + b.len) 16 - (b.off + b.len)) 0) (by simp; omega)
  rw [h1, bind_ok]
  refine ⟨_, rfl, ?_, ?_, rfl, h2, ?_⟩
  · simp only [Buf.WF]; omega
  · simp only [Buf.data]
    exact h7 b.off b.len (by omega)
  · intro i hi1 hi2
    have := h4 (i - (b.off + b.len)) (by simp; omega)
    simp only []
    rw [show b.off + b.len + (i - (b.off + b.len)) = i by omega] at this
    rw [this, List.getElem?_replicate, if_pos (by omega)]

example : ∃ b, align ⟨List.replicate 32 7, 9, 5⟩ (List.replicate 32 1) 32 16 = .ok b ∧
    b.off = 16 ∧ b.data = [7, 7, 7, 7, 7] := ⟨_, rfl, rfl, rfl⟩

example : pushFrom ⟨[0, 0, 0, 4, 5, 6], 3, 2⟩ [8, 9] = .ok ⟨[0, 8, 9, 4, 5, 6], 1, 4⟩ := by decide

end Fastd.Buffer
