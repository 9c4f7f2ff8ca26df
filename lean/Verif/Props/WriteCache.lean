import Verif.Proof.WriteCache

/-! C15 transparency of the write cache, C16 bounds of its buffers. -/

namespace Verif
open Layout Spec Storage WriteCache

/-! ### C15 -/

/-- For every layout (as in C14), every group size and every legal history, in every interleaving of
stores with the background flush steps, nothing goes wrong and reading a piece (first what the cache
has, later the rest from the files, after any further events `es2` that do not store into that piece)
yields exactly the memory with all stored blocks written: the latest data at every position. The
buffer may hold anything before.
Missing for the full property: a block stored again while its older version is cached
(`C15_stale_block_violated`), stores during the flush of a partly filled group
(`C15_flush_loses_block_violated`), failing storage (`C15_write_error_violated`). -/
theorem C15_cache_transparent_partial (ps : Nat) (fl : FileList) (hps : 0 < ps) (hps31 : ps < 2147483648)
    (h63 : (fileSizes fl).sum < 9223372036854775808) (h32 : pieceCount ps (fileSizes fl).sum < 4294967296)
    (hfl : NoBoundaryEnd ps fl) :
    ∃ i, parseInfo ps (pieceCount ps (fileSizes fl).sum) fl = .ok i ∧
      ∀ (cachePerGroup : Nat), cachePerGroup < 4294967296 →
      ∀ (m : Mem) (es1 es2 : List Ev),
        LegalRun i (groupBufferSize cachePerGroup) ps (fileSizes fl).sum (init (m.files 0 (fileSizes fl))) (es1 ++ es2) →
        ∃ s1 s2, run i (groupBufferSize cachePerGroup) (init (m.files 0 (fileSizes fl))) es1 = .ok s1 ∧
          run i (groupBufferSize cachePerGroup) s1 es2 = .ok s2 ∧
          ∀ (idx : Nat) (offsets : List BlockOffset) (buf : List UInt8),
            idx < pieceCount ps (fileSizes fl).sum → buf.length = getPieceSize i idx →
            OffsetsSorted offsets idx (cached s1) →
            (∀ b ∈ storedBlocks es2, b.info.index ≠ idx) →
            ∃ r, readCache s1 idx offsets buf = .ok r ∧
              loadMissing i s2.fs idx r =
                .ok (.Success, ((storedBlocks es1).foldl (memStore ps) m).read (idx * ps) (getPieceSize i idx)) := by
  obtain ⟨i, h1, h2, h3⟩ := geo_layout ps fl hps hps31 h63 h32 hfl
  refine ⟨i, h1, ?_⟩
  intro cpg hcpg m es1 es2 hleg
  have hG : groupBufferSize cpg < 18446744073709551616 := by unfold groupBufferSize BlockMaxSize; omega
  have hG' : 16384 ≤ groupBufferSize cpg := by unfold groupBufferSize BlockMaxSize; omega
  generalize groupBufferSize cpg = G at *
  obtain ⟨l1, l2⟩ := legalRun_split i G ps (fileSizes fl).sum es2 es1 _ hleg
  obtain ⟨s1, m1, r1, inv1, _⟩ := inv_run i h2 hps31 h3 h63 hG hG' es1 _ m m (inv_init ps _ G _ m) l1
  obtain ⟨s2, m2, r2, inv2, hm2⟩ := inv_run i h2 hps31 h3 h63 hG hG' es2 s1 m1 _ inv1 (l2 s1 r1)
  refine ⟨s1, s2, r1, r2, ?_⟩
  intro idx offsets buf hidx hbuf hsort hno
  obtain ⟨q1, q2, q3⟩ := pieceSize_layout ps fl hps hps31 h63 h32 hfl i h1 idx hidx
  obtain ⟨r, hr1, hr2⟩ := read_spec i h2 hps31 h3 h63 s1 m1 _ m2 inv1 idx offsets hsort buf (by omega) (by omega) (by omega) (by
    intro x hx1 hx2 hx3
    apply hm2 x hx3
    intro b hb hin
    have hlen := legalRun_inPiece i G ps (fileSizes fl).sum es2 s1 s2 (l2 s1 r1) r2 b hb
    have hne := hno b hb
    unfold InB blockStart at hin
    rcases Nat.lt_or_gt_of_ne hne with hlt | hgt
    · have := Nat.mul_le_mul_right ps (show b.info.index + 1 ≤ idx from hlt)
      rw [Nat.add_mul] at this; omega
    · have := Nat.mul_le_mul_right ps (show idx + 1 ≤ b.info.index from hgt)
      omega)
  refine ⟨r, hr1, ?_⟩
  rw [inv2.disk, hr2, hbuf]

/-- A history meeting the conditions: the first block is flushed in the background while the second
is stored, then the first is stored again. -/
example : ∃ i, parseInfo 20 (pieceCount 20 30) (.single 30) = .ok i ∧
    LegalRun i (groupBufferSize 0) 20 30 (init (Mem.files (fun _ => 0) 0 [30]))
      [.store ⟨⟨0, 0, 2⟩, [1, 2]⟩, .write 0 [⟨0, ⟨0, 0, 2⟩⟩], .store ⟨⟨1, 7, 1⟩, [3]⟩, .clear 0, .store ⟨⟨0, 0, 2⟩, [4, 4]⟩] := by
  refine ⟨_, rfl, ?_⟩
  decide +kernel

/-- A block received twice: while both copies are cached, a read returns the older one. -/
theorem C15_stale_block_violated : ∃ i s, parseInfo 2 1 (.single 2) = .ok i ∧
    run i (groupBufferSize 0) (init [some [0, 0]]) [.store ⟨⟨0, 0, 2⟩, [1, 1]⟩, .store ⟨⟨0, 0, 2⟩, [2, 2]⟩] = .ok s ∧
    OffsetsSorted [⟨0, 2⟩, ⟨0, 2⟩] 0 (cached s) ∧
    readCache s 0 [⟨0, 2⟩, ⟨0, 2⟩] [0, 0] = .ok ([1, 1], []) := by
  refine ⟨_, Exists.imp (fun s (h : _ ∧ cached s = [⟨⟨0, 0, 2⟩, [2, 2]⟩, ⟨⟨0, 0, 2⟩, [1, 1]⟩]) =>
    ⟨rfl, h.1, ⟨?_, ?_⟩, ?_⟩) (Res.exists_ok ?_)⟩
  · rw [h.2]; decide
  · decide
  · unfold readCache; rw [h.2]; decide
  · decide +kernel

/-- A block stored while `flush()` is writing its group is dropped: it is neither cached nor in the file. -/
theorem C15_flush_loses_block_violated : ∃ i s, parseInfo 4 1 (.single 4) = .ok i ∧
    run i (groupBufferSize 32768) (init [some [0, 0, 0, 0]])
      [.store ⟨⟨0, 0, 2⟩, [1, 1]⟩, .flushAll, .write 0 [⟨0, ⟨0, 0, 2⟩⟩], .store ⟨⟨0, 2, 2⟩, [2, 2]⟩, .clear 0] = .ok s ∧
    cached s = [] ∧ s.fs = [some [1, 1, 0, 0]] := by
  refine ⟨_, Exists.imp (fun _ h => ⟨rfl, h⟩) (Res.exists_ok ?_)⟩
  decide +kernel

/-- When the storage fails (here: the file is gone) the blocks are dropped all the same. -/
theorem C15_write_error_violated : ∃ i s, parseInfo 4 1 (.single 4) = .ok i ∧
    run i (groupBufferSize 0) (init [none]) [.store ⟨⟨0, 0, 2⟩, [1, 1]⟩, .write 0 [⟨0, ⟨0, 0, 2⟩⟩], .clear 0] = .ok s ∧
    cached s = [] ∧ s.fs = [none] := by
  refine ⟨_, Exists.imp (fun _ h => ⟨rfl, h⟩) (Res.exists_ok ?_)⟩
  decide +kernel

/-- `flush()` twice in a row flushes the same group twice; the second flush has no blocks. -/
theorem C15_double_flush_violated : ∃ i, parseInfo 4 1 (.single 4) = .ok i ∧
    run i (groupBufferSize 32768) (init [some [0, 0, 0, 0]])
      [.store ⟨⟨0, 0, 2⟩, [1, 1]⟩, .flushAll, .flushAll, .write 0 [⟨0, ⟨0, 0, 2⟩⟩], .clear 0, .write 0 []] = .ub := by
  refine ⟨_, rfl, ?_⟩
  decide +kernel

/-! ### C16 -/

/-- After every history (any interleaving, any flushes, overlapping or repeated blocks) of stores of at
most 16 KiB: every block in the cache lies inside its group's buffer, no two blocks of a group share a
byte of it, and the next store of a legal block is again in bounds. -/
theorem C16_buffers_in_bounds (i : Info) (cachePerGroup : Nat) (hc : cachePerGroup < 4294967296) (fs : Fs) (es : List Ev) (s : St)
    (hes : ∀ b, Ev.store b ∈ es → b.data.length = b.info.length ∧ b.data.length ≤ 16384)
    (hrun : run i (groupBufferSize cachePerGroup) (init fs) es = .ok s) :
    (∀ g ∈ s.groups, (∀ c ∈ g.blocks, c.off + c.info.length ≤ g.buffer.length) ∧
      g.blocks.Pairwise fun a b => a.off + a.info.length ≤ b.off ∨ b.off + b.info.length ≤ a.off) ∧
    ∀ b : Block, b.data.length = b.info.length → b.data.length ≤ 16384 →
      storeBlock (groupBufferSize cachePerGroup) s b ≠ .ub := by
  have hG : groupBufferSize cachePerGroup < 18446744073709551616 := by unfold groupBufferSize BlockMaxSize; omega
  have hG' : 16384 ≤ groupBufferSize cachePerGroup := by unfold groupBufferSize BlockMaxSize; omega
  generalize groupBufferSize cachePerGroup = G at *
  have inv := bufInv_run hG hG' i es _ s (show BufInv G (init fs) by constructor <;> simp [init]) hes hrun
  refine ⟨?_, ?_⟩
  · intro g hg
    have h := inv.groups g hg
    refine ⟨fun c hcm => ?_, h.apart⟩
    have := h.inside c hcm
    have := h.pos
    have := h.len
    omega
  · intro b hl hm hub
    obtain ⟨s', h1, _⟩ := bufInv_store hG hG' s inv b hl hm
    rw [h1] at hub; cases hub

/-- Every block in the cache still has the bytes it was stored with: storing a block keeps all cached
blocks and adds this one. -/
theorem C16_store_keeps_blocks (i : Info) (cachePerGroup : Nat) (hc : cachePerGroup < 4294967296) (fs : Fs) (es : List Ev) (s : St)
    (hes : ∀ b, Ev.store b ∈ es → b.data.length = b.info.length ∧ b.data.length ≤ 16384)
    (hrun : run i (groupBufferSize cachePerGroup) (init fs) es = .ok s)
    (b : Block) (hl : b.data.length = b.info.length) (hm : b.data.length ≤ 16384) :
    ∃ s', storeBlock (groupBufferSize cachePerGroup) s b = .ok s' ∧ (cached s').Perm (b :: cached s) := by
  have hG : groupBufferSize cachePerGroup < 18446744073709551616 := by unfold groupBufferSize BlockMaxSize; omega
  have hG' : 16384 ≤ groupBufferSize cachePerGroup := by unfold groupBufferSize BlockMaxSize; omega
  generalize groupBufferSize cachePerGroup = G at *
  have inv := bufInv_run hG hG' i es _ s (show BufInv G (init fs) by constructor <;> simp [init]) hes hrun
  exact store_perm hG hG' s inv b hl hm

/-- Non-vacuity: two blocks in one group. -/
example : ∃ s, run {} (groupBufferSize 32768) (init []) [.store ⟨⟨0, 0, 2⟩, [1, 1]⟩, .store ⟨⟨5, 3, 1⟩, [2]⟩] = .ok s ∧
    cached s = [⟨⟨0, 0, 2⟩, [1, 1]⟩, ⟨⟨5, 3, 1⟩, [2]⟩] := by
  refine Res.exists_ok ?_
  decide +kernel

/-- A block larger than a group is written past the end of the buffer. -/
theorem C16_oversized_block_violated (cachePerGroup : Nat) (hc : cachePerGroup < 4294967296) (fs : Fs) (b : Block)
    (hb : groupBufferSize cachePerGroup < b.data.length) :
    storeBlock (groupBufferSize cachePerGroup) (init fs) b = .ub := by
  have hG : groupBufferSize cachePerGroup < 18446744073709551616 := by unfold groupBufferSize BlockMaxSize; omega
  have hG' : 16384 ≤ groupBufferSize cachePerGroup := by unfold groupBufferSize BlockMaxSize; omega
  generalize groupBufferSize cachePerGroup = G at *
  unfold storeBlock groupsFor
  simp only [init, List.all_nil, if_true]
  unfold storeInto
  rw [newGroup_full G 0 hG hG']
  simp only [Bool.false_eq_true, if_false]
  unfold putBuf
  rw [if_neg (by simp; omega)]
  rfl

end Verif
