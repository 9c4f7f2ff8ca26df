import Verif.Proof.UtpDeliver
/-! A stream stays inside its buffers and lists. -/
namespace Verif.Utp
open Verif Spec

theorem nu_bind {α β} {r : Res α} {f : α → Res β} (h : r ≠ .ub) (g : ∀ a, r = .ok a → f a ≠ .ub) : (r >>= f) ≠ .ub := by
  cases r with
  | ok a => exact g a rfl
  | ub => exact absurd rfl h
  | diverge => intro h; cases h

theorem nu_ok {α} {a : α} : (Res.ok a) ≠ .ub := by intro h; cases h

theorem nu_pure {α} {a : α} : (pure a : Res α) ≠ .ub := by intro h; cases h

theorem createBuffer_nu {bufs : List (List UInt8)} {b : List UInt8} : createBuffer bufs b ≠ .ub := by
  unfold createBuffer
  split
  · exact nu_ok
  · split
    · intro h; cases h
    · exact nu_ok

theorem sendData_nu {s : Stream} {data : List UInt8} : s.sendData data ≠ .ub := by
  unfold Stream.sendData
  exact nu_bind createBuffer_nu fun _ _ => nu_pure

theorem writeLoop_nu : ∀ (n : Nat) {s : Stream} {data : List UInt8} {grow : Bool}, Stream.writeLoop n s data grow ≠ .ub
  | n, s, [], grow => by cases n <;> (rw [Stream.writeLoop]; exact nu_ok)
  | 0, s, _ :: _, grow => by
    rw [Stream.writeLoop]
    · intro h; cases h
    · simp
  | n + 1, s, x :: xs, grow => by
    rw [Stream.writeLoop]
    · split
      · split <;> exact nu_ok
      · exact nu_bind sendData_nu fun _ _ => writeLoop_nu n
    · simp

theorem flushLoop_nu (limit : Nat) : ∀ (n : Nat) {s : Stream} {data : List UInt8}, Stream.flushLoop limit n s data ≠ .ub
  | n, s, [] => by cases n <;> (rw [Stream.flushLoop]; exact nu_ok)
  | 0, s, _ :: _ => by
    rw [Stream.flushLoop]
    · intro h; cases h
    · simp
  | n + 1, s, x :: xs => by
    rw [Stream.flushLoop]
    · split
      · exact nu_bind sendData_nu fun _ _ => flushLoop_nu limit n
      · exact nu_ok
    · simp

theorem rd_nu {α} {l : List α} {i : Nat} (h : i < l.length) : rd l i ≠ .ub := by
  rw [rd_eq_ok h]; exact nu_ok

theorem Kept.long {q0 conn : Nat} {bufs cs : List (List UInt8)} {k : Nat} {p : Sent} (h : Kept q0 conn bufs cs k p) {b : List UInt8} (hb : bufs[p.idx]? = some b) : 20 ≤ b.length := by
  obtain ⟨hd, c, _, _, _, _, _, f⟩ := h.buf
  rw [hb] at f
  cases f
  rw [List.length_append, bytes_length]; omega

theorem resendLoop_nu {q0 conn : Nat} {cs : List (List UInt8)} (last : Nat) : ∀ (ps : List Sent) {ks : List Nat} {s : Stream},
    List.Forall₂ (Kept q0 conn s.buffers cs) ks ps → (ps.map (·.idx)).Nodup → resendLoop last ps s ≠ .ub
  | [], ks, s, hk, hn => by rw [resendLoop]; exact nu_ok
  | p :: ps, ks, s, hk, hn => by
    rw [resendLoop]
    split
    · exact nu_ok
    · cases hk with
      | cons hk hks =>
      simp only [List.map_cons, List.nodup_cons] at hn
      split
      · exact nu_bind (resendLoop_nu last ps hks hn.2) fun _ _ => nu_pure
      · refine nu_bind (rd_nu (used_lt hk.used)) fun b hb => ?_
        rw [if_neg (by have := hk.long (rd_ok hb); omega)]
        refine nu_bind (resendLoop_nu (q0 := q0) (conn := conn) (cs := cs) last ps (forall₂_imp hks fun k q _ hq hx => hx.congr rfl rfl (by
              simp only
              rw [List.getElem?_set_ne]
              rintro he
              exact hn.1 (List.mem_map.mpr ⟨q, hq, he.symm⟩))) hn.2) fun _ _ => nu_pure

theorem resend_nu {q0 : Nat} {cs : List (List UInt8)} {ks : List Nat} {s : Stream} (h : SInv q0 cs ks s) {last : Nat} : s.resend last ≠ .ub := by
  unfold Stream.resend
  exact nu_bind (resendLoop_nu last _ h.kept h.own) fun _ _ => nu_pure

theorem ackPacket_nu {s : Stream} {p : Sent} (h : Used s.buffers p.idx) : s.ackPacket p ≠ .ub := by
  unfold Stream.ackPacket
  exact nu_bind (rd_nu (used_lt h)) fun _ _ => nu_pure

theorem ackLoop_nu {q0 : Nat} {cs : List (List UInt8)} (ack : Nat) : ∀ (ps : List Sent) {ks : List Nat} {s : Stream}, SInv q0 cs ks { s with sentData := ps } → ackLoop ack ps s ≠ .ub
  | [], ks, s, hi => by rw [ackLoop]; exact nu_ok
  | p :: ps, ks, s, hi => by
    rw [ackLoop]
    split
    · exact nu_ok
    · have hkept := hi.kept
      simp only at hkept
      cases ks with
      | nil => cases hkept
      | cons k ks =>
        have hk : Kept q0 s.idSend s.buffers cs k p := by cases hkept; assumption
        refine nu_bind (ackPacket_nu hk.used) fun s1 h1 => ?_
        obtain ⟨i1, _⟩ := ackPacket_sent (ks1 := []) (l1 := []) hi rfl h1
        exact ackLoop_nu ack ps i1

theorem ackSent_nu {q0 : Nat} {cs : List (List UInt8)} {ks : List Nat} {s : Stream} (h : SInv q0 cs ks s) {hd : Header} : s.ackSent hd ≠ .ub := by
  unfold Stream.ackSent
  refine nu_bind (ackLoop_nu _ _ (h.congr rfl rfl rfl rfl rfl rfl rfl rfl)) fun r _ => ?_
  split
  · exact nu_pure
  · split <;> exact nu_pure

theorem sackOne_nu {q0 : Nat} {cs : List (List UInt8)} {ks : List Nat} {s : Stream} (h : SInv q0 cs ks s) {q : Nat} : s.sackOne q ≠ .ub := by
  unfold Stream.sackOne
  split
  · exact nu_ok
  · rename_i i hi
    rw [List.findIdx?_eq_some_iff_getElem] at hi
    obtain ⟨hi, _⟩ := hi
    refine nu_bind (rd_nu hi) fun p hp => ?_
    split
    · have hu := h.used (List.mem_map.mpr ⟨p, List.mem_of_getElem? (rd_ok hp), rfl⟩)
      exact nu_bind (ackPacket_nu hu) fun _ _ => nu_pure
    · exact nu_pure

theorem sackAll_nu {q0 : Nat} {cs : List (List UInt8)} : ∀ (qs : List Nat) {ks : List Nat} {s : Stream}, SInv q0 cs ks s → Stream.sackAll qs s ≠ .ub
  | [], ks, s, h => by rw [Stream.sackAll]; exact nu_ok
  | q :: qs, ks, s, h => by
    rw [Stream.sackAll]
    refine nu_bind (sackOne_nu h) fun s1 h1 => ?_
    obtain ⟨k1, i1, _⟩ := sackOne_sent h h1
    exact sackAll_nu qs i1

theorem sack_nu {q0 : Nat} {cs : List (List UInt8)} {ks : List Nat} {s : Stream} (h : SInv q0 cs ks s) {hd : Header} {bytes : List UInt8} : s.sack hd bytes ≠ .ub := by
  unfold Stream.sack
  refine nu_bind (sackAll_nu _ h) fun s1 h1 => ?_
  obtain ⟨k1, i1, _⟩ := sackAll_sent _ h h1
  split
  · exact nu_bind (rd_nu (by omega)) fun _ _ => resend_nu i1
  · exact nu_pure

theorem handleExts_nu {q0 : Nat} {cs : List (List UInt8)} {hd : Header} : ∀ (es : List (Nat × List UInt8)) {ks : List Nat} {s : Stream}, SInv q0 cs ks s → Stream.handleExts hd es s ≠ .ub
  | [], ks, s, h => by rw [Stream.handleExts]; exact nu_ok
  | e :: es, ks, s, h => by
    rw [Stream.handleExts]
    split
    · refine nu_bind (sack_nu h) fun s1 h1 => ?_
      obtain ⟨k1, i1, _⟩ := sack_sent h h1
      exact handleExts_nu es i1
    · exact handleExts_nu es h

theorem flushSend_nu {q0 : Nat} {cs : List (List UInt8)} {ks : List Nat} {s : Stream} (h : SInv q0 cs ks s) : s.flushSend ≠ .ub := by
  unfold Stream.flushSend
  refine nu_bind ?_ fun s1 h1 => nu_bind (flushLoop_nu _ _) fun r _ => ?_
  · unfold Stream.flushResend
    split
    · exact resend_nu h
    · simp only
      split
      · exact resend_nu h
      · exact nu_ok
  · simp only
    split
    · split
      · exact nu_pure
      · split <;> exact nu_pure
    · exact nu_pure

theorem packetTimeout_nu {s : Stream} (h : s.timeoutCount ≤ 22) : s.packetTimeout ≠ .ub := by
  unfold Stream.packetTimeout
  split
  · exact nu_ok
  · split
    · exact nu_ok
    · rw [if_neg]
      · exact nu_ok
      · have : 2 ^ (s.timeoutCount - 1) ≤ 2 ^ 21 := Nat.pow_le_pow_right (by omega) (by omega)
        omega

theorem schedule_nu {s : Stream} (h : s.timeoutCount ≤ 22) : s.schedule ≠ .ub := by
  unfold Stream.schedule
  exact nu_bind (packetTimeout_nu h) fun _ _ => nu_pure

theorem updateState_nu {q0 : Nat} {cs : List (List UInt8)} {ks : List Nat} {s : Stream} {p : Packet} (h : SInv q0 cs ks s) (ht : s.timeoutCount ≤ 22) : s.updateState p ≠ .ub := by
  unfold Stream.updateState
  split
  · exact nu_ok
  · refine nu_bind (ackSent_nu h) fun a h1 => ?_
    obtain ⟨k1, i1, _⟩ := ackSent_sent h h1
    have i1' : SInv q0 cs k1 (Stream.setConnected { a with replyDelay := (a.now32 + 4294967296 - p.head.ts) % 4294967296, peerWnd := p.head.wnd } p.head) := by
      unfold Stream.setConnected
      split <;> exact i1.congr rfl rfl rfl rfl rfl rfl rfl rfl
    have t1 : (Stream.setConnected { a with replyDelay := (a.now32 + 4294967296 - p.head.ts) % 4294967296, peerWnd := p.head.wnd } p.head).timeoutCount = s.timeoutCount := by
      rw [← (ackSent_frame h1).timeoutCount]
      unfold Stream.setConnected
      split <;> rfl
    refine nu_bind (handleExts_nu _ i1') fun b h2 => ?_
    obtain ⟨k2, j1, _⟩ := handleExts_sent p.exts i1' h2
    refine nu_bind (flushSend_nu j1) fun c h3 => ?_
    refine nu_bind (schedule_nu ?_) fun _ _ => nu_pure
    rw [(flushSend_frame h3).timeoutCount, (handleExts_frame _ h2).timeoutCount, t1]; exact ht

theorem clearSend_nu {q0 : Nat} {cs : List (List UInt8)} {ks : List Nat} {s : Stream} (h : SInv q0 cs ks s) : s.clearSend ≠ .ub := by
  unfold Stream.clearSend
  rw [if_pos]
  · exact nu_ok
  · rw [List.all_eq_true]
    intro p hp
    simpa using used_lt (h.used (List.mem_map.mpr ⟨p, hp, rfl⟩))

/-! Selective acks sent. -/

/-- The bits of a byte: the place of the last stored packet is `o`. -/
theorem sackBits_ok (l : List Stored) (base o : Nat) (ho : o < 65536) (hlast : ∀ d, l.getLast? = some d → d.seq = (base + o) % 65536) :
    ∀ (n t k v : Nat), k < l.length → t + n ≤ 65536 →
    ∃ v' q' k', sackBits l n ((base + t) % 65536) k v = .ok (v', q', k') ∧ k' ≤ l.length ∧ (k' = l.length → t ≤ o ∧ o < t + n) ∧ (k' < l.length → q' = (base + (t + n)) % 65536)
  | 0, t, k, v, hk, ht => ⟨v, _, k, rfl, by omega, fun h => by omega, fun _ => rfl⟩
  | n + 1, t, k, v, hk, ht => by
    have hq : inc16 ((base + t) % 65536) = (base + (t + 1)) % 65536 := by unfold inc16; omega
    rw [sackBits, rd_eq_ok hk, Res.bind_ok, hq]
    split
    · rename_i hs
      split
      · rename_i hl
        refine ⟨_, _, k + 1, rfl, by omega, fun _ => ?_, fun h => by omega⟩
        have := hlast l[k] (by rw [List.getLast?_eq_getElem?, List.getElem?_eq_getElem (by omega)]; congr 2; omega)
        omega
      · obtain ⟨v', q', k', h1, h2, h3, h4⟩ := sackBits_ok l base o ho hlast n (t + 1) (k + 1) (v + 2 ^ (7 - n)) (by omega) (by omega)
        refine ⟨v', q', k', h1, h2, fun h => ?_, fun h => ?_⟩
        · have := h3 h; omega
        · rw [h4 h]; congr 1; omega
    · obtain ⟨v', q', k', h1, h2, h3, h4⟩ := sackBits_ok l base o ho hlast n (t + 1) k v hk (by omega)
      refine ⟨v', q', k', h1, h2, fun h => ?_, fun h => ?_⟩
      · have := h3 h; omega
      · rw [h4 h]; congr 1; omega

theorem sackBytes_nu (l : List Stored) (base o : Nat) (ho : o < 65536) (hlast : ∀ d, l.getLast? = some d → d.seq = (base + o) % 65536) :
    ∀ (n t k : Nat), k < l.length → t + 8 * n ≤ 65536 → (n ≠ 0 → t + 8 * (n - 1) ≤ o) → sackBytes l n ((base + t) % 65536) k ≠ .ub
  | 0, t, k, hk, ht, hle => by rw [sackBytes]; exact nu_ok
  | n + 1, t, k, hk, ht, hle => by
    obtain ⟨v', q', k', h1, h2, h3, h4⟩ := sackBits_ok l base o ho hlast 8 t k 0 hk (by omega)
    rw [sackBytes, h1, Res.bind_ok]
    refine nu_bind ?_ fun _ _ => nu_pure
    simp only
    rcases Nat.lt_or_ge k' l.length with hk' | hk'
    · rw [h4 hk']
      exact sackBytes_nu l base o ho hlast n (t + 8) k' hk' (by omega) (fun hn => by have := hle (by omega); omega)
    · have := h3 (by omega)
      have := hle (by omega)
      have hn : n = 0 := by omega
      subst hn
      rw [sackBytes]; exact nu_ok

/-- The receiving side holds buffers of its own. -/
structure Safe (s : Stream) : Prop where
  ack : s.ack < 65536
  stored : ∀ d ∈ s.receivedData, Used s.buffers d.idx ∧ d.idx ∉ s.idxs ∧ d.seq < 65536

theorem stateBytes_nu {s : Stream} (h : Safe s) {typ ack : Nat} : s.stateBytes typ ack ≠ .ub := by
  unfold Stream.stateBytes
  simp only
  split
  · exact nu_pure
  · rename_i hz
    refine nu_bind ?_ fun _ _ => nu_pure
    unfold Stream.sackSize at hz ⊢
    cases hl : s.receivedData.getLast? with
    | none => rw [hl] at hz; exact absurd rfl hz
    | some d =>
      simp only
      have hd := (h.stored d (List.mem_of_getLast? hl)).2.2
      have ha := h.ack
      have hpos : 0 < s.receivedData.length := by
        cases hr : s.receivedData with
        | nil => rw [hr] at hl; cases hl
        | cons a as => simp
      have key := sackBytes_nu s.receivedData ((s.ack + 2) % 65536) ((d.seq + 65536 - (s.ack + 2) % 65536) % 65536) (by omega)
        (fun x hx => by rw [hl] at hx; cases hx; omega)
        (min ((((if d.seq < s.ack then d.seq + 65536 else d.seq) + 4294967296 - (s.ack + 1)) % 4294967296 + 7) % 4294967296 / 8 + 2) 100 - 2) 0 0 hpos (by omega)
        (by intro hn; split at hn <;> split <;> omega)
      simpa using key

theorem sendState_nu {s : Stream} (h : Safe s) : s.sendState ≠ .ub := by
  unfold Stream.sendState
  exact nu_bind (stateBytes_nu h) fun _ _ => nu_pure

theorem checkEof_nu {s : Stream} (h : Safe s) : s.checkEof ≠ .ub := by
  unfold Stream.checkEof
  split
  · refine nu_bind ?_ fun _ _ => nu_pure
    unfold Stream.sendFin
    exact nu_bind (stateBytes_nu h) fun _ _ => nu_pure
  · exact nu_ok

theorem Safe.congr {s s' : Stream} (h : Safe s) (h1 : s'.ack < 65536) (h2 : s'.receivedData = s.receivedData) (h3 : s'.buffers = s.buffers) (h4 : s'.idxs = s.idxs) : Safe s' :=
  ⟨h1, by rw [h2, h3, h4]; exact h.stored⟩

theorem dataEnd_nu {s : Stream} (h : Safe s) : s.dataEnd ≠ .ub := by
  unfold Stream.dataEnd
  split
  · exact checkEof_nu (h.congr h.ack rfl rfl rfl)
  · exact nu_ok

theorem Safe.rframe {s s' : Stream} (h : Safe s) (f : RFrame s s') : Safe s' := by
  refine ⟨by rw [f.ack]; exact h.ack, fun d hd => ?_⟩
  rw [f.receivedData] at hd
  obtain ⟨⟨b, hb, hn⟩, h2, h3⟩ := h.stored d hd
  refine ⟨⟨b, f.bufs _ _ h2 hb hn, hn⟩, fun hi => ?_, h3⟩
  rcases f.idxs _ hi with hi | hi
  · exact h2 hi
  · exact hi ⟨b, hb, hn⟩

theorem recvLoop_safe : ∀ (l : List Stored) {s : Stream}, (∀ d ∈ l, Used s.buffers d.idx) →
    recvLoop l s ≠ .ub ∧ ∀ r, recvLoop l s = .ok r → (∀ d ∈ r.1, d ∈ l) ∧ (s.ack < 65536 → r.2.ack < 65536)
  | [], s, h => by rw [recvLoop]; exact ⟨nu_ok, fun r hr => by cases hr; exact ⟨fun _ h => h, id⟩⟩
  | d :: ds, s, h => by
    rw [recvLoop]
    split
    · rw [rd_eq_ok (used_lt (h d List.mem_cons_self)), Res.bind_ok]
      obtain ⟨i1, i2⟩ := recvLoop_safe ds (s := { s with receiveBuffer := s.receiveBuffer ++ s.buffers[d.idx]'(used_lt (h d List.mem_cons_self)), ack := inc16 s.ack }) fun x hx => h x (List.mem_cons_of_mem _ hx)
      refine ⟨i1, fun r hr => ?_⟩
      obtain ⟨j1, j2⟩ := i2 r hr
      exact ⟨fun x hx => List.mem_cons_of_mem _ (j1 x hx), fun _ => j2 (by simp only [inc16]; omega)⟩
    · exact ⟨nu_ok, fun r hr => by cases hr; exact ⟨fun _ h => h, id⟩⟩

theorem insertStored_mem {x : Stored} : ∀ {l l' : List Stored}, insertStored x l = some l' → ∀ d ∈ l', d = x ∨ d ∈ l
  | [], l', h, d, hd => by
    rw [insertStored] at h; cases h
    exact Or.inl (List.mem_singleton.mp hd)
  | e :: es, l', h, d, hd => by
    rw [insertStored] at h
    split at h
    · cases h
    · split at h
      · cases h
        rcases List.mem_cons.mp hd with hd | hd
        · exact Or.inl hd
        · exact Or.inr hd
      · cases hi : insertStored x es with
        | none => rw [hi] at h; cases h
        | some m =>
          rw [hi] at h; cases h
          rcases List.mem_cons.mp hd with rfl | hd
          · exact Or.inr List.mem_cons_self
          · exact (insertStored_mem hi d hd).imp id fun h => List.mem_cons_of_mem _ h

/-- The times of a stream: `timeoutCount` stays small. -/
structure Timed (s : Stream) : Prop where
  recv : s.lastReceive ≤ s.clock
  count : s.timeoutCount ≤ 11
  live : s.step = .closed ∨ s.closePosted = true ∨ s.timeoutCount ≤ 10
  opening : s.step.num < 3 → s.lastReceive + 3000000 * (s.timeoutCount + 1) ≤ s.nextTimeout
  connected : s.step = .connected → 6 ≤ s.timeoutCount → s.lastReceive + 30000000 ≤ s.nextTimeout

structure Good (s : Stream) : Prop where
  sent : ∃ q0 cs ks, SInv q0 cs ks s
  safe : Safe s
  timed : Timed s
  start : s.step ≠ .clean
  syn : s.step = .synSend → s.sentData = []

/-- What the sending side reads. -/
structure SameSend (s s' : Stream) : Prop where
  sequence : s'.sequence = s.sequence
  idSend : s'.idSend = s.idSend
  buffers : s'.buffers = s.buffers
  sentData : s'.sentData = s.sentData
  unacked : s'.unacked = s.unacked
  maxSize : s'.maxSize = s.maxSize
  prepared : s'.prepared = s.prepared
  preparedPos : s'.preparedPos = s.preparedPos

structure SameTime (s s' : Stream) : Prop where
  step : s'.step = s.step
  clock : s.clock ≤ s'.clock
  count : s'.timeoutCount = s.timeoutCount
  recv : s'.lastReceive = s.lastReceive
  next : s'.nextTimeout = s.nextTimeout
  posted : s.closePosted = true → s'.closePosted = true

theorem Timed.same {s s' : Stream} (h : Timed s) (t : SameTime s s') : Timed s' := by
  refine ⟨by rw [t.recv]; exact Nat.le_trans h.recv t.clock, by rw [t.count]; exact h.count, ?_, ?_, ?_⟩
  · rw [t.step, t.count]; exact h.live.imp id (Or.imp t.posted id)
  · rw [t.step, t.count, t.recv, t.next]; exact h.opening
  · rw [t.step, t.count, t.recv, t.next]; exact h.connected

theorem Good.of {s s' : Stream} (h : Good s) (a : SameSend s s') (t : SameTime s s') (h1 : s'.ack < 65536) (h2 : ∀ d ∈ s'.receivedData, d ∈ s.receivedData) : Good s' := by
  obtain ⟨q0, cs, ks, hi⟩ := h.sent
  refine ⟨⟨q0, cs, ks, hi.congr a.sequence a.idSend a.buffers a.sentData a.unacked a.maxSize a.prepared a.preparedPos⟩, ⟨h1, fun d hd => ?_⟩, h.timed.same t, by rw [t.step]; exact h.start,
    by rw [t.step, a.sentData]; exact h.syn⟩
  have := h.safe.stored d (h2 d hd)
  unfold Stream.idxs
  rw [a.buffers, a.sentData]; exact this

theorem close_posted {s : Stream} (h : s.closePosted = true) : s.close.closePosted = true := by
  unfold Stream.close; split
  · exact h
  · rfl

theorem checkEof_posted {s s' : Stream} (h : s.checkEof = .ok s') (hp : s.closePosted = true) : s'.closePosted = true := by
  unfold Stream.checkEof at h
  split at h
  · obtain ⟨a, h1, h⟩ := bind_ok_inv h
    cases h
    unfold Stream.sendFin at h1
    obtain ⟨b, _, h1⟩ := bind_ok_inv h1
    cases h1
    exact close_posted hp
  · cases h; exact hp

theorem dataEnd_posted {s s' : Stream} (h : s.dataEnd = .ok s') (hp : s.closePosted = true) : s'.closePosted = true := by
  unfold Stream.dataEnd at h
  split at h
  · exact checkEof_posted h hp
  · cases h; exact hp

theorem Good.close {s : Stream} (h : Good s) : Good s.close := by
  have := close_posted (s := s)
  rw [close_congr] at this ⊢
  exact h.of ⟨rfl, rfl, rfl, rfl, rfl, rfl, rfl, rfl⟩ ⟨rfl, Nat.le_refl _, rfl, rfl, rfl, this⟩ h.safe.ack (fun _ h => h)

theorem Good.checkEof {s : Stream} (h : Good s) : s.checkEof ≠ .ub ∧ ∀ s', s.checkEof = .ok s' → Good s' := by
  refine ⟨checkEof_nu h.safe, fun s' hs => ?_⟩
  have hp := checkEof_posted hs
  rw [checkEof_congr hs]
  exact h.of ⟨rfl, rfl, rfl, rfl, rfl, rfl, rfl, rfl⟩ ⟨rfl, Nat.le_refl _, rfl, rfl, rfl, hp⟩ h.safe.ack (fun _ h => h)

theorem Good.dataEnd {s : Stream} (h : Good s) : s.dataEnd ≠ .ub ∧ ∀ s', s.dataEnd = .ok s' → Good s' := by
  refine ⟨dataEnd_nu h.safe, fun s' hs => ?_⟩
  have hp := dataEnd_posted hs
  rw [dataEnd_congr hs]
  exact h.of ⟨rfl, rfl, rfl, rfl, rfl, rfl, rfl, rfl⟩ ⟨rfl, Nat.le_refl _, rfl, rfl, rfl, hp⟩ h.safe.ack (fun _ h => h)

theorem Good.flushReceived {s : Stream} (h : Good s) : s.flushReceived ≠ .ub ∧ ∀ s', s.flushReceived = .ok s' → Good s' := by
  obtain ⟨r1, r2⟩ := recvLoop_safe s.receivedData (s := s) fun d hd => (h.safe.stored d hd).1
  refine ⟨nu_bind r1 fun _ _ => nu_pure, fun s' hs => ?_⟩
  have hc := flushReceived_congr hs
  unfold Stream.flushReceived at hs
  obtain ⟨r, h1, hs⟩ := bind_ok_inv hs
  obtain ⟨j1, j2⟩ := r2 r h1
  cases hs
  rw [hc]
  exact h.of ⟨rfl, rfl, rfl, rfl, rfl, rfl, rfl, rfl⟩ ⟨rfl, Nat.le_refl _, rfl, rfl, rfl, id⟩ (j2 h.safe.ack) j1

theorem Good.store {s : Stream} (h : Good s) {seq : Nat} {data : List UInt8} (hq : seq < 65536) (hd : data ≠ []) : s.store seq data ≠ .ub ∧ ∀ s', s.store seq data = .ok s' → Good s' := by
  constructor
  · unfold Stream.store
    refine nu_bind createBuffer_nu fun b _ => ?_
    split <;> exact nu_pure
  · intro s' hs
    have hu : ∀ i ∈ s.idxs, Used s.buffers i := by
      obtain ⟨q0, cs, ks, hi⟩ := h.sent
      exact fun i hi' => hi.used hi'
    have hsent : ∃ q0 cs ks, SInv q0 cs ks s' := by
      obtain ⟨q0, cs, ks, hi⟩ := h.sent
      exact ⟨q0, cs, ks, (hi.store hs).1⟩
    unfold Stream.store at hs
    obtain ⟨b, h1, hs⟩ := bind_ok_inv hs
    obtain ⟨c1, c2, c3, _⟩ := createBuffer_ok h1
    have old : ∀ d ∈ s.receivedData, Used b.1 d.idx ∧ d.idx ∉ s.idxs ∧ d.seq < 65536 := by
      intro d hd'
      obtain ⟨⟨x, hx, hn⟩, g2, g3⟩ := h.safe.stored d hd'
      exact ⟨⟨x, c3 _ (fun he => c1 (he ▸ ⟨x, hx, hn⟩)) x hx, hn⟩, g2, g3⟩
    split at hs
    · rename_i l hl
      cases hs
      refine ⟨hsent, ⟨h.safe.ack, fun d hd' => ?_⟩, h.timed.same ⟨rfl, Nat.le_refl _, rfl, rfl, rfl, id⟩, h.start, h.syn⟩
      rcases insertStored_mem hl d hd' with rfl | hd'
      · exact ⟨⟨data, c2, hd⟩, fun hi => c1 (hu _ hi), hq⟩
      · exact old d hd'
    · cases hs
      exact ⟨hsent, ⟨h.safe.ack, old⟩, h.timed.same ⟨rfl, Nat.le_refl _, rfl, rfl, rfl, id⟩, h.start, h.syn⟩

theorem Good.clear {s : Stream} (h : Good s) : s.clearSend ≠ .ub ∧ ∀ s', s.clearSend = .ok s' → Good s' := by
  obtain ⟨q0, cs, ks, hi⟩ := h.sent
  refine ⟨clearSend_nu hi, fun s' hs => ?_⟩
  have f := (clearSend_rframe hs).1
  obtain ⟨e, _, _⟩ := clearSend_ok hs
  refine ⟨⟨q0, cs, [], hi.clear hs⟩, h.safe.rframe f, ?_, by rw [e]; exact h.start, by rw [e]; exact fun _ => rfl⟩
  refine h.timed.same ?_
  rw [e]
  exact ⟨rfl, Nat.le_refl _, rfl, rfl, rfl, id⟩

theorem packetTimeout_late {s : Stream} {t : Nat} (h : s.packetTimeout = .ok t) (hs : 3 ≤ s.step.num) (hc : 6 ≤ s.timeoutCount) : t = 30000 := by
  unfold Stream.packetTimeout at h
  rw [if_neg (by omega), if_neg (by omega)] at h
  split at h
  · cases h
  · cases h
    have : 2 ^ 5 ≤ 2 ^ (s.timeoutCount - 1) := Nat.pow_le_pow_right (by omega) (by omega)
    omega

theorem packetTimeout_early {s : Stream} {t : Nat} (h : s.packetTimeout = .ok t) (hs : s.step.num < 3) : t = 3000 := by
  unfold Stream.packetTimeout at h
  rw [if_pos hs] at h
  cases h; rfl

theorem updateState_good {s : Stream} (h : Good s) {p : Packet} (hq : p.head.seq < 65536) : s.updateState p ≠ .ub ∧ ∀ s', s.updateState p = .ok (some s') → Good s' := by
  obtain ⟨q0, cs, ks, hi⟩ := h.sent
  refine ⟨updateState_nu hi (Nat.le_trans h.timed.count (by omega)), fun s' hs => ?_⟩
  obtain ⟨_, s1, f1, f2⟩ := updateState_split hs
  have hsafe1 := h.safe.rframe f1.r
  have hstep : (s1.setConnected p.head).step = if s.step.num < 3 then .connected else s.step := by
    unfold Stream.setConnected
    rw [← f1.step]
    split <;> rfl
  have hsafe2 : Safe (s1.setConnected p.head) := by
    unfold Stream.setConnected
    split
    · refine hsafe1.congr ?_ rfl rfl rfl
      simp only
      split
      · omega
      · exact hsafe1.ack
    · exact hsafe1
  have hc1 : (s1.setConnected p.head).timeoutCount = s.timeoutCount ∧ (s1.setConnected p.head).closePosted = s.closePosted ∧ (s1.setConnected p.head).clock = s.clock := by
    rw [← f1.timeoutCount, ← f1.closePosted, ← f1.clock]
    unfold Stream.setConnected
    split <;> exact ⟨rfl, rfl, rfl⟩
  have hst : s'.step = if s.step.num < 3 then .connected else s.step := f2.step.trans hstep
  have hge : 3 ≤ s'.step.num := by
    rw [hst]; split
    · simp [Step.num]
    · omega
  have hsent : ∃ q0 cs ks, SInv q0 cs ks s' := by
    have hu := hs
    unfold Stream.updateState at hu
    split at hu
    · cases hu
    · obtain ⟨a, h1, hu⟩ := bind_ok_inv hu
      obtain ⟨k1, i1, _⟩ := ackSent_sent hi h1
      have i1' : SInv q0 cs k1 (Stream.setConnected { a with replyDelay := (a.now32 + 4294967296 - p.head.ts) % 4294967296, peerWnd := p.head.wnd } p.head) := by
        unfold Stream.setConnected
        split <;> exact i1.congr rfl rfl rfl rfl rfl rfl rfl rfl
      obtain ⟨b, h2, hu⟩ := bind_ok_inv hu
      obtain ⟨k2, j1, _⟩ := handleExts_sent p.exts i1' h2
      obtain ⟨c, h3, hu⟩ := bind_ok_inv hu
      obtain ⟨e, h4, hu⟩ := bind_ok_inv hu
      cases hu
      unfold Stream.schedule at h4
      obtain ⟨t, _, h4⟩ := bind_ok_inv h4
      cases h4
      obtain ⟨cs', g1, _⟩ := flushSend_sent j1 h3
      exact ⟨q0, _, _, g1.congr rfl rfl rfl rfl rfl rfl rfl rfl⟩
  have htime : s'.lastReceive = s'.clock ∧ (6 ≤ s'.timeoutCount → s'.nextTimeout = s'.clock + 30000000) := by
    have hu := hs
    unfold Stream.updateState at hu
    split at hu
    · cases hu
    · obtain ⟨a, h1, hu⟩ := bind_ok_inv hu
      obtain ⟨b, h2, hu⟩ := bind_ok_inv hu
      obtain ⟨c, h3, hu⟩ := bind_ok_inv hu
      obtain ⟨e, h4, hu⟩ := bind_ok_inv hu
      cases hu
      unfold Stream.schedule at h4
      obtain ⟨t, ht, h4⟩ := bind_ok_inv h4
      cases h4
      refine ⟨rfl, fun hc => ?_⟩
      rw [packetTimeout_late ht hge hc]
  refine ⟨hsent, hsafe2.rframe f2.r, ⟨by omega, ?_, ?_, fun hn => by omega, fun _ hc => ?_⟩, ?_, ?_⟩
  · rw [f2.timeoutCount, hc1.1]; exact h.timed.count
  · rw [f2.timeoutCount, hc1.1, f2.closePosted, hc1.2.1, hst]
    rcases h.timed.live with hl | hl
    · left; rw [hl]; rfl
    · exact Or.inr hl
  · have := htime.2 hc; omega
  · intro hn; rw [hn] at hge; simp [Step.num] at hge
  · intro hn; rw [hn] at hge; simp [Step.num] at hge

theorem packet_good {s : Stream} (h : Good s) {p : Packet} (hq : p.head.seq < 65536) : s.readPacket p ≠ .ub ∧ ∀ s', s.readPacket p = .ok s' → Good s' := by
  have hb : Good { s with bytesSize := s.bytesSize + p.data.length } := h.of ⟨rfl, rfl, rfl, rfl, rfl, rfl, rfl, rfl⟩ ⟨rfl, Nat.le_refl _, rfl, rfl, rfl, id⟩ h.safe.ack (fun _ h => h)
  unfold Stream.readPacket
  simp only
  obtain ⟨u1, u2⟩ := updateState_good hb hq
  split
  · unfold Stream.handleData
    split
    · exact ⟨nu_ok, fun s' hs => by cases hs; exact hb⟩
    · rename_i hd
      constructor
      · refine nu_bind u1 fun o ho => ?_
        cases o with
        | none => exact nu_pure
        | some s1 =>
          have g1 := u2 s1 ho
          simp only
          split
          · exact nu_pure
          · split
            · have g2 : Good { s1 with receiveBuffer := s1.receiveBuffer ++ p.data, ack := inc16 s1.ack } :=
                g1.of ⟨rfl, rfl, rfl, rfl, rfl, rfl, rfl, rfl⟩ ⟨rfl, Nat.le_refl _, rfl, rfl, rfl, id⟩ (by simp only [inc16]; omega) (fun _ h => h)
              refine nu_bind g2.flushReceived.1 fun s2 h2 => ?_
              have g3 := g2.flushReceived.2 s2 h2
              exact (Good.dataEnd (s := { s2 with appended := true }) (g3.of ⟨rfl, rfl, rfl, rfl, rfl, rfl, rfl, rfl⟩ ⟨rfl, Nat.le_refl _, rfl, rfl, rfl, id⟩ g3.safe.ack (fun _ h => h))).1
            · split
              · exact nu_bind (g1.store hq hd).1 fun s2 h2 => ((g1.store hq hd).2 s2 h2).dataEnd.1
              · exact nu_pure
      · intro s' hs
        obtain ⟨o, ho, hs⟩ := bind_ok_inv hs
        cases o with
        | none => cases hs; exact hb
        | some s1 =>
          have g1 := u2 s1 ho
          simp only at hs
          split at hs
          · cases hs; exact g1
          · split at hs
            · have g2 : Good { s1 with receiveBuffer := s1.receiveBuffer ++ p.data, ack := inc16 s1.ack } :=
                g1.of ⟨rfl, rfl, rfl, rfl, rfl, rfl, rfl, rfl⟩ ⟨rfl, Nat.le_refl _, rfl, rfl, rfl, id⟩ (by simp only [inc16]; omega) (fun _ h => h)
              obtain ⟨s2, h2, hs⟩ := bind_ok_inv hs
              have g3 := g2.flushReceived.2 s2 h2
              exact (Good.dataEnd (s := { s2 with appended := true }) (g3.of ⟨rfl, rfl, rfl, rfl, rfl, rfl, rfl, rfl⟩ ⟨rfl, Nat.le_refl _, rfl, rfl, rfl, id⟩ g3.safe.ack (fun _ h => h))).2 s' hs
            · split at hs
              · obtain ⟨s2, h2, hs⟩ := bind_ok_inv hs
                exact ((g1.store hq hd).2 s2 h2).dataEnd.2 s' hs
              · cases hs; exact g1
  · unfold Stream.handleFin
    split
    · rename_i hne
      have g : Good { s with bytesSize := s.bytesSize + p.data.length, eofAck := p.head.seq, step := .closing } := by
        obtain ⟨q0, cs, ks, hi⟩ := h.sent
        refine ⟨⟨q0, cs, ks, hi.congr rfl rfl rfl rfl rfl rfl rfl rfl⟩, ⟨h.safe.ack, h.safe.stored⟩, ⟨h.timed.recv, h.timed.count, ?_, fun hn => by simp [Step.num] at hn, fun hn => by cases hn⟩,
          by simp, fun hn => by cases hn⟩
        rcases h.timed.live with hl | hl
        · exact absurd hl hne
        · exact Or.inr hl
      refine ⟨nu_bind g.clear.1 fun s1 h1 => (g.clear.2 s1 h1).checkEof.1, fun s' hs => ?_⟩
      obtain ⟨s1, h1, hs⟩ := bind_ok_inv hs
      exact (g.clear.2 s1 h1).checkEof.2 s' hs
    · exact ⟨nu_bind nu_pure fun s1 h1 => by cases h1; exact hb.checkEof.1, fun s' hs => by
        obtain ⟨s1, h1, hs⟩ := bind_ok_inv hs
        cases h1
        exact hb.checkEof.2 s' hs⟩
  · constructor
    · refine nu_bind u1 fun o _ => ?_
      cases o <;> exact nu_pure
    · intro s' hs
      obtain ⟨o, ho, hs⟩ := bind_ok_inv hs
      cases o with
      | none => cases hs; exact hb
      | some s1 => cases hs; exact u2 _ ho
  · refine ⟨nu_bind hb.clear.1 fun _ _ => nu_pure, fun s' hs => ?_⟩
    obtain ⟨s1, h1, hs⟩ := bind_ok_inv hs
    cases hs
    exact (hb.clear.2 s1 h1).close
  · exact ⟨nu_ok, fun s' hs => by cases hs; exact hb⟩

/-- Sending leaves the timer alone. -/
def SameTimer (s s' : Stream) : Prop := s'.lastReceive = s.lastReceive ∧ s'.nextTimeout = s.nextTimeout

theorem sendData_timer {s : Stream} {data : List UInt8} {r : Stream × Nat} (h : s.sendData data = .ok r) : SameTimer s r.1 := by
  unfold Stream.sendData at h
  obtain ⟨b, _, h⟩ := bind_ok_inv h
  cases h; exact ⟨rfl, rfl⟩

theorem writeLoop_timer : ∀ (n : Nat) {s s' : Stream} {data : List UInt8} {grow : Bool}, Stream.writeLoop n s data grow = .ok s' → SameTimer s s'
  | n, s, s', [], grow, h => by cases n <;> (rw [Stream.writeLoop] at h; cases h; exact ⟨rfl, rfl⟩)
  | 0, s, s', _ :: _, grow, h => by
    rw [Stream.writeLoop] at h
    · cases h
    · simp
  | n + 1, s, s', x :: xs, grow, h => by
    rw [Stream.writeLoop] at h
    · split at h
      · split at h <;> (cases h; exact ⟨rfl, rfl⟩)
      · obtain ⟨r, h1, h⟩ := bind_ok_inv h
        obtain ⟨a, b⟩ := sendData_timer h1
        obtain ⟨c, d⟩ := writeLoop_timer n h
        exact ⟨c.trans a, d.trans b⟩
    · simp

theorem resendLoop_timer (last : Nat) : ∀ (ps : List Sent) {s : Stream} {r : List Sent × Stream}, resendLoop last ps s = .ok r → SameTimer s r.2
  | [], s, r, h => by rw [resendLoop] at h; cases h; exact ⟨rfl, rfl⟩
  | p :: ps, s, r, h => by
    rw [resendLoop] at h
    split at h
    · cases h; exact ⟨rfl, rfl⟩
    · split at h
      · obtain ⟨r', h1, h⟩ := bind_ok_inv h
        cases h
        exact (resendLoop_timer last ps h1 : SameTimer _ _)
      · obtain ⟨b, _, h⟩ := bind_ok_inv h
        split at h
        · cases h
        · obtain ⟨r', h1, h⟩ := bind_ok_inv h
          cases h
          exact (resendLoop_timer last ps h1 : SameTimer _ _)

theorem resend_timer {s s' : Stream} {last : Nat} (h : s.resend last = .ok s') : SameTimer s s' := by
  unfold Stream.resend at h
  obtain ⟨r, h1, h⟩ := bind_ok_inv h
  cases h
  exact resendLoop_timer last _ h1

theorem write_good {s : Stream} (h : Good s) {data : List UInt8} {grow : Bool} (hne : s.step ≠ .synSend) : s.write data grow ≠ .ub ∧ ∀ s', s.write data grow = .ok s' → Good s' := by
  constructor
  · unfold Stream.write
    split
    · exact nu_ok
    · exact writeLoop_nu _
  · intro s' hs
    have f := write_frame hs
    obtain ⟨q0, cs, ks, hi⟩ := h.sent
    have ht : SameTimer s s' := by
      unfold Stream.write at hs
      split at hs
      · cases hs; exact ⟨rfl, rfl⟩
      · exact writeLoop_timer _ hs
    obtain ⟨ks1, cs', i1, _⟩ := next_sent (e := .write data grow) hi ⟨h.start, hne⟩ hs
    exact ⟨⟨q0, _, _, i1⟩, h.safe.rframe f.r, h.timed.same ⟨f.step, Nat.le_of_eq f.clock.symm, f.timeoutCount, ht.1, ht.2, fun hp => f.closePosted.trans hp⟩, by rw [f.step]; exact h.start,
      fun hn => absurd (f.step.symm.trans hn) hne⟩

/-- The last part of `refresh`. -/
theorem bump_good {s s1 : Stream} (h : Timed s) (hfire : s.nextTimeout < s.clock) (hp : s.closePosted = false) (hnc : s.step ≠ .closed) (g : Good s1) (e1 : s1.step = s.step) (e2 : s1.clock = s.clock)
    (e3 : s1.timeoutCount = s.timeoutCount) (e4 : s1.lastReceive = s.lastReceive) (hc : s1.closePosted = true ∨ (s.clock ≤ s.lastReceive + 30000000 ∧ s.step.num < 4)) :
    (do
      let s := { s1 with timeoutCount := (s1.timeoutCount + 1) % 4294967296 }
      let t ← s.packetTimeout
      pure { s with nextTimeout := s.clock + t * 1000 } : Res Stream) ≠ .ub ∧
    ∀ s', (do
      let s := { s1 with timeoutCount := (s1.timeoutCount + 1) % 4294967296 }
      let t ← s.packetTimeout
      pure { s with nextTimeout := s.clock + t * 1000 } : Res Stream) = .ok s' → Good s' := by
  have hcount := h.count
  have hlive : s.timeoutCount ≤ 10 := by
    rcases h.live with hl | hl | hl
    · exact absurd hl hnc
    · rw [hp] at hl; cases hl
    · exact hl
  have hmod : (s1.timeoutCount + 1) % 4294967296 = s.timeoutCount + 1 := by rw [e3]; omega
  rw [hmod]
  constructor
  · refine nu_bind (packetTimeout_nu ?_) fun _ _ => nu_pure
    simp only; omega
  · intro s' hs
    obtain ⟨t, ht, hs⟩ := bind_ok_inv hs
    cases hs
    have hr := h.recv
    have g1 := g.safe
    obtain ⟨q0, cs, ks, hi⟩ := g.sent
    refine ⟨⟨q0, cs, ks, hi.congr rfl rfl rfl rfl rfl rfl rfl rfl⟩, ⟨g1.ack, g1.stored⟩, ⟨g.timed.recv, ?_, ?_, ?_, ?_⟩, g.start, g.syn⟩
    · simp only; omega
    · simp only
      rcases hc with hc | ⟨hc1, hc2⟩
      · exact Or.inr (Or.inl hc)
      · right; right
        rcases Nat.lt_or_ge s.step.num 3 with h3 | h3
        · have := h.opening h3; omega
        · have hs3 : s.step = .connected := by
            cases hs : s.step <;> rw [hs] at h3 hc2 <;> simp [Step.num] at h3 hc2
          have := h.connected hs3
          omega
    · simp only
      intro hn
      rw [packetTimeout_early ht hn]
      rw [e1] at hn
      have h1 := h.opening hn
      rw [e2, e4]
      have h2 : 3000000 * (s.timeoutCount + 1 + 1) = 3000000 * (s.timeoutCount + 1) + 3000000 := Nat.mul_succ _ _
      generalize 3000000 * (s.timeoutCount + 1) = a at h1 h2
      have h3 : 3000 * 1000 = 3000000 := by decide
      omega
    · simp only
      intro hn hc6
      rw [packetTimeout_late ht (by simp only; rw [hn]; simp [Step.num]) (by simp only; omega), e2, e4]
      omega

theorem refresh_good {s : Stream} (h : Good s) (hp : s.closePosted = false) : s.refresh ≠ .ub ∧ ∀ s', s.refresh = .ok s' → Good s' := by
  unfold Stream.refresh
  split
  · rename_i hf
    obtain ⟨hfire, hnc⟩ := hf
    have hposted : s.close.closePosted = true := by unfold Stream.close; rw [if_neg hnc]
    have toClose := bump_good h.timed hfire hp hnc h.close (by rw [close_congr]) (by rw [close_congr]) (by rw [close_congr]) (by rw [close_congr]) (Or.inl hposted)
    split
    · exact toClose
    · rename_i hlate
      have hin : s.clock ≤ s.lastReceive + 30000000 ∧ s.step.num < 4 := by omega
      split
      · split
        · exact bump_good h.timed hfire hp hnc h rfl rfl rfl rfl (Or.inr hin)
        · rename_i p ps hsd
          have hI : ∃ q0 cs ks, SInv q0 cs ks { s with sentData := (p :: ps).map fun q => { q with needResend := true } } := by
            obtain ⟨q0, cs, ks, h⟩ := h.sent
            refine ⟨q0, cs, ks, ⟨h.seq, ?_, h.sorted, ?_, h.size, h.inflight, h.lo, h.hi, h.parts, h.pos⟩⟩
            · simp only
              rw [← hsd, List.forall₂_map_right_iff]
              exact forall₂_imp h.kept fun _ _ _ _ hx => hx.congr rfl rfl rfl
            · simp only [Stream.idxs, List.map_map]
              rw [← hsd]; exact h.own
          obtain ⟨q0, cs, ks, hi⟩ := hI
          have hne : s.step ≠ .synSend := fun hn => by rw [h.syn hn] at hsd; cases hsd
          have key : ∀ s1, Stream.resend { s with sentData := (p :: ps).map fun q => { q with needResend := true } } p.seq = .ok s1 →
              Good s1 ∧ s1.step = s.step ∧ s1.clock = s.clock ∧ s1.timeoutCount = s.timeoutCount ∧ s1.lastReceive = s.lastReceive := by
            intro s1 h1
            have f := resend_frame h1
            have f0 : RFrame s { s with sentData := (p :: ps).map fun q => { q with needResend := true } } := by
              refine RFrame.of rfl rfl rfl ?_ rfl
              simp only [Stream.idxs, List.map_map]
              rw [← hsd]; rfl
            obtain ⟨t1, t2⟩ := resend_timer h1
            exact ⟨⟨⟨q0, cs, ks, (resend_sent hi h1).1⟩, h.safe.rframe (f0.trans f.r), h.timed.same ⟨f.step, Nat.le_of_eq f.clock.symm, f.timeoutCount, t1, t2, fun hp => f.closePosted.trans hp⟩,
              by rw [f.step]; exact h.start, fun hn => absurd (f.step.symm.trans hn) hne⟩, f.step, f.clock, f.timeoutCount, t1⟩
          constructor
          · refine nu_bind (resend_nu hi) fun s1 h1 => ?_
            obtain ⟨k1, k2, k3, k4, k5⟩ := key s1 h1
            exact (bump_good h.timed hfire hp hnc k1 k2 k3 k4 k5 (Or.inr hin)).1
          · intro s' hs
            obtain ⟨s1, h1, hs⟩ := bind_ok_inv hs
            obtain ⟨k1, k2, k3, k4, k5⟩ := key s1 h1
            exact (bump_good h.timed hfire hp hnc k1 k2 k3 k4 k5 (Or.inr hin)).2 s' hs
      · split
        · rename_i hsyn
          split
          · exact toClose
          · have g : Good s.sendSyn := by
              obtain ⟨q0, cs, ks, hi⟩ := h.sent
              have hsd := h.syn hsyn
              have hk := hi.kept
              rw [hsd] at hk
              cases hk
              refine ⟨⟨inc16 s.sequence, [], [], ?_⟩, ⟨h.safe.ack, h.safe.stored⟩, h.timed.same ⟨rfl, Nat.le_refl _, rfl, rfl, rfl, id⟩, h.start, h.syn⟩
              refine ⟨by simp [Stream.sendSyn, inc16], ?_, .nil, hi.own, hi.size, hi.inflight, hi.lo, hi.hi, (fun _ h => by cases h), hi.pos⟩
              change List.Forall₂ _ [] s.sentData
              rw [hsd]; exact .nil
            exact bump_good h.timed hfire hp hnc g rfl rfl rfl rfl (Or.inr hin)
        · split
          · split
            · exact toClose
            · have key : ∀ s1, s.sendState = .ok s1 → Good s1 ∧ s1.step = s.step ∧ s1.clock = s.clock ∧ s1.timeoutCount = s.timeoutCount ∧ s1.lastReceive = s.lastReceive := by
                intro s1 h1
                rw [sendState_congr h1]
                exact ⟨h.of ⟨rfl, rfl, rfl, rfl, rfl, rfl, rfl, rfl⟩ ⟨rfl, Nat.le_refl _, rfl, rfl, rfl, id⟩ h.safe.ack (fun _ h => h), rfl, rfl, rfl, rfl⟩
              constructor
              · refine nu_bind (sendState_nu h.safe) fun s1 h1 => ?_
                obtain ⟨k1, k2, k3, k4, k5⟩ := key s1 h1
                exact (bump_good h.timed hfire hp hnc k1 k2 k3 k4 k5 (Or.inr hin)).1
              · intro s' hs
                obtain ⟨s1, h1, hs⟩ := bind_ok_inv hs
                obtain ⟨k1, k2, k3, k4, k5⟩ := key s1 h1
                exact (bump_good h.timed hfire hp hnc k1 k2 k3 k4 k5 (Or.inr hin)).2 s' hs
          · exact bump_good h.timed hfire hp hnc h rfl rfl rfl rfl (Or.inr hin)
  · exact ⟨nu_ok, fun s' hs => by cases hs; exact h⟩

theorem finish_good {s : Stream} (h : Good s) {used : Option Nat} : s.readFinish used ≠ .ub ∧ ∀ s', s.readFinish used = .ok s' → Good s' := by
  constructor
  · unfold Stream.readFinish
    split
    · exact nu_bind (sendState_nu h.safe) fun _ _ => nu_pure
    · exact nu_bind nu_pure fun _ _ => nu_pure
  · intro s' hs
    rw [(readFinish_congr hs).1]
    exact h.of ⟨rfl, rfl, rfl, rfl, rfl, rfl, rfl, rfl⟩ ⟨rfl, Nat.le_refl _, rfl, rfl, rfl, id⟩ h.safe.ack (fun _ h => h)

theorem runClose_good {s : Stream} (h : Good s) : Good s.runClose := by
  unfold Stream.runClose
  split
  · obtain ⟨q0, cs, ks, hi⟩ := h.sent
    exact ⟨⟨q0, cs, ks, hi.congr rfl rfl rfl rfl rfl rfl rfl rfl⟩, ⟨h.safe.ack, h.safe.stored⟩, ⟨h.timed.recv, h.timed.count, Or.inl rfl, fun hn => by simp [Step.num] at hn, fun hn => by cases hn⟩,
      by simp, fun hn => by cases hn⟩
  · exact h

theorem next_good {s : Stream} (h : Good s) {e : Event} (hs : ∀ p, e = .packet p → p.head.seq < 65536) (hw : ∀ d g, e = .write d g → s.step ≠ .synSend) (hr : e = .refresh → s.closePosted = false) :
    s.next e ≠ .ub ∧ ∀ s', s.next e = .ok s' → Good s' := by
  cases e with
  | tick t => exact ⟨nu_ok, fun s' h' => by cases h'; exact h.of ⟨rfl, rfl, rfl, rfl, rfl, rfl, rfl, rfl⟩ ⟨rfl, Nat.le_add_right _ _, rfl, rfl, rfl, id⟩ h.safe.ack (fun _ h => h)⟩
  | packet p => exact packet_good h (hs p rfl)
  | finish used => exact finish_good h
  | write data grow => exact write_good h (hw _ _ rfl)
  | refresh => exact refresh_good h (hr rfl)
  | close => exact ⟨nu_ok, fun s' h' => by cases h'; exact h.close⟩
  | runClose => exact ⟨nu_ok, fun s' h' => by cases h'; exact runClose_good h⟩

end Verif.Utp
