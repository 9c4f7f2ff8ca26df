import Verif.Proof.UdpTracker
/-! C42: replies of UDP trackers. -/

namespace Verif
open UdpTracker Net Http Spec

/-- C42 (partial: for datagrams of 16 bytes and more, or a transaction id other than 0; see
`C42_zero_violated`): a datagram that does not carry the transaction id of the last request changes nothing,
whatever waits for it. One that carries it, but another action, ends one wait and is reported as a failure: no
request is sent, no peers are reported, nothing but the state changes, and the state does not advance. -/
theorem C42_matched_partial {s s' : Sys} {junk : Addr} {e : Env} {tx : Nat} {d : List UInt8} {o : List Out}
    (hd : d ≠ []) (hs : 16 ≤ d.length ∨ s.t.last.transaction ≠ 0) (h : step s (.datagram junk e tx d) = .ok (s', o)) :
    (s' = s ∧ o = []) ∨
      (HasTx s.t.last.transaction d ∧ (CarriesMsg s.t.last.action s.t.last.transaction d ∨
        (o = [.fail] ∧ s'.t = { s.t with state := s'.t.state } ∧ s'.t.state.rank ≤ max s.t.state.rank TState.offline.rank ∧
          ∃ pre k post, s.waiting = pre ++ k :: post ∧ s'.waiting = pre ++ post))) := by
  rcases dispatch_ok hd _ _ _ _ _ _ h with ⟨rfl, rfl⟩ | ⟨pre, k, post, t', o', h1, h2, rfl, rfl⟩
  · exact .inl ⟨by simp, rfl⟩
  · rcases onReply_ok hd hs h2 with ⟨hf, _⟩ | ⟨_, h3, h4⟩
    · cases hf
    · refine .inr ⟨h3, h4.imp id fun h4 => ?_⟩
      obtain ⟨t, w⟩ := s
      simp only [fail] at h4
      cases h4
      refine ⟨rfl, rfl, ?_, pre, k, post, h1, by simp [sent]⟩
      simp only
      split
      · exact Nat.le_max_right _ _
      · split
        · exact Nat.le_trans (by omega) (Nat.le_max_left _ _)
        · exact Nat.le_trans (by omega) (Nat.le_max_left _ _)

/-- C42 (partial: for datagrams of 8 bytes and more, and for all while no announce waits for its reply; see
`C42_short_violated`): no byte outside the datagram is read, and the datagram is processed to the end. -/
theorem C42_memory_partial (s : Sys) (junk : Addr) (e : Env) (tx : Nat) (d : List UInt8) (h : 8 ≤ d.length ∨ ∀ k ∈ s.waiting, k = .connect) :
    ∃ r, step s (.datagram junk e tx d) = .ok r :=
  dispatch_def _ _ _ _ _ h

/-- C42: the peers reported are those in the datagram, in their order, up to an incomplete last entry; so are
the other numbers. Only from a datagram too short for a peer nothing is reported but default values. `junk`
is what is left in memory where the addresses are made; no address made with four bytes shows it. -/
theorem C42_peers {s s' : Sys} {junk : Addr} {e : Env} {tx : Nat} {d : List UInt8} {o : List Out} {r : Announce}
    (hd : d ≠ []) (h : step s (.datagram junk e tx d) = .ok (s', o)) (hr : .result r ∈ o) :
    (d.length < 26 ∧ r = {}) ∨ ∃ (es : List (List UInt8 × Nat)) (rest : List UInt8), rest.length < 6 ∧ (∀ p ∈ es, p.1.length = 4 ∧ p.2 < 65536) ∧
      d = be32 s.t.last.action ++ be32 s.t.last.transaction ++ be32 r.interval ++ be32 r.leech ++ be32 r.seed ++ es.flatMap compactPeer ++ rest ∧
      r.peers = es.map fun p => ⟨p.1 ++ junk.bytes.drop 4, p.2, false⟩ := by
  have hl : d.length ≠ 0 := by simpa using hd
  rcases dispatch_ok hd _ _ _ _ _ _ h with ⟨rfl, rfl⟩ | ⟨pre, k, post, t', o', h1, h2, rfl, rfl⟩
  · cases hr
  · cases k with
    | connect =>
      simp only [onReply, onConnect, if_neg hl] at h2
      obtain ⟨⟨m, c⟩, hg, h2⟩ := Utp.bind_ok_inv h2
      simp only at h2
      split at h2
      · cases h2
        simp [announce, connect, createAnnounceRequest, TState.rank] at hr
      · split at h2 <;> cases h2
        simp [fail] at hr
    | announce =>
      simp only [onReply, onAnnounce, if_neg hl] at h2
      obtain ⟨⟨m, a⟩, hg, h2⟩ := Utp.bind_ok_inv h2
      simp only at h2
      split at h2
      · rename_i hv
        simp only [validResponse, Bool.and_eq_true, beq_iff_eq] at hv
        cases h2
        obtain rfl : r = a := by simpa using hr
        rcases (getAnnounce_ok hg).2 with h3 | ⟨_, es, rest, h3, h4, h5, h6⟩
        · exact .inl h3
        · rw [hv.1, hv.2] at h5
          exact .inr ⟨es, rest, h3, h4, h5, h6⟩
      · split at h2 <;> cases h2
        simp [fail] at hr

/-- C42: the reply to a connect request is taken, and the announce that follows has the layout of the protocol,
with the connection id of the reply. -/
theorem C42_connected {t : Tracker} {ks : List Kind} {junk : Addr} {e : Env} {tx id x : Nat} (rest : List UInt8)
    (hl : t.last = ⟨0, x⟩) (hx : x < 4294967296) (hid : id < 18446744073709551616)
    (hh : e.hash.length = 20) (hp : e.peerId.length = 20) :
    step ⟨t, .connect :: ks⟩ (.datagram junk e tx (connectReply x id ++ rest)) = .ok
      (⟨{ t with state := .announcing, connectionId := id, last := ⟨1, tx⟩ }, .announce :: ks⟩,
        [.send .announce (announceRequest id tx e.hash e.peerId e.downloaded e.left e.uploaded e.finished e.key e.numWant e.port)]) := by
  have hg : getConnectResponse (connectReply x id ++ rest) = .ok (⟨0, x⟩, id) := by
    have h1 : ((connectReply x id ++ rest).drop 4).take 4 = be32 x := by
      rfl
    have h2 : ((connectReply x id ++ rest).drop 8).take 8 = be64 id := by
      rfl
    have h0 : (connectReply x id ++ rest).take 4 = be32 0 := rfl
    have hlen : (connectReply x id ++ rest).length = 16 + rest.length := by simp [connectReply]; omega
    unfold getConnectResponse
    rw [if_pos (by omega)]
    simp only [pop32, pop64, List.drop_zero, h0, h1, h2, beVal_be32 _ hx, beVal_be64 _ hid, hlen]
    rw [if_pos (by omega), Res.bind_ok, if_pos (by omega), Res.bind_ok, if_pos (by omega)]
    rfl
  have hne : (connectReply x id ++ rest).length ≠ 0 := by simp [connectReply]
  simp only [step, dispatch, Bool.false_eq_true, if_false, onReply, onConnect, if_neg hne, hg, Res.bind_ok, validResponse, hl]
  simp only [beq_self_eq_true, Bool.and_self, if_true, Res.bind_ok, Res.pure_eq]
  rw [dispatch_true]
  simp [announce, createAnnounceRequest, TState.rank, sent, announceRequest, actAnnounce, List.take_of_length_le (Nat.le_of_eq hh), List.take_of_length_le (Nat.le_of_eq hp)]

/-- C42: the reply to an announce is taken, and exactly its peers and numbers are reported. -/
theorem C42_announced {t : Tracker} {ks : List Kind} {junk : Addr} {e : Env} {tx x interval leechers seeders : Nat} {ps : List (List UInt8 × Nat)}
    (hl : t.last = ⟨1, x⟩) (hx : x < 4294967296) (hi : interval < 4294967296) (hle : leechers < 4294967296) (hse : seeders < 4294967296)
    (hne : ps ≠ []) (hps : ∀ p ∈ ps, p.1.length = 4 ∧ p.2 < 65536) :
    step ⟨t, .announce :: ks⟩ (.datagram junk e tx (announceReply x interval leechers seeders ps)) = .ok
      (⟨{ t with state := .announced, leeches := leechers, seeds := seeders, peers := ps.length % 4294967296, interval := interval }, ks⟩,
        [.result { interval, leech := leechers, seed := seeders, peers := ps.map fun p => ⟨p.1 ++ junk.bytes.drop 4, p.2, false⟩ }]) := by
  have hlp : ∀ l : List (List UInt8 × Nat), (∀ p ∈ l, p.1.length = 4 ∧ p.2 < 65536) → (l.flatMap compactPeer).length = 6 * l.length := by
    intro l
    induction l with
    | nil => simp
    | cons p l ih =>
      intro h
      have h1 := (h p (by simp)).1
      have h2 := ih fun q hq => h q (by simp [hq])
      rw [List.flatMap_cons, List.length_append, h2]
      simp [compactPeer, h1]; omega
  have hlen : (announceReply x interval leechers seeders ps).length = 20 + 6 * ps.length := by
    simp only [announceReply, List.length_append, be32_length, hlp ps hps]
  have hpos : 0 < ps.length := List.length_pos_iff.mpr hne
  have h0 : (announceReply x interval leechers seeders ps).take 4 = be32 1 := rfl
  have h1 : ((announceReply x interval leechers seeders ps).drop 4).take 4 = be32 x := rfl
  have h2 : ((announceReply x interval leechers seeders ps).drop 8).take 4 = be32 interval := rfl
  have h3 : ((announceReply x interval leechers seeders ps).drop 12).take 4 = be32 leechers := rfl
  have h4 : ((announceReply x interval leechers seeders ps).drop 16).take 4 = be32 seeders := rfl
  have h5 : (announceReply x interval leechers seeders ps).drop 20 = ps.flatMap compactPeer := rfl
  have hn : (announceReply x interval leechers seeders ps).length ≠ 0 := by omega
  have hg : getAnnounceResponse junk (announceReply x interval leechers seeders ps) = .ok (⟨1, x⟩,
      { interval, leech := leechers, seed := seeders, peers := ps.map fun p => ⟨p.1 ++ junk.bytes.drop 4, p.2, false⟩ }) := by
    unfold getAnnounceResponse
    simp only [pop32, List.drop_zero, h0, h1, h2, h3, h4, h5, beVal_be32 _ hx, beVal_be32 _ hi, beVal_be32 _ hle, beVal_be32 _ hse, hlen]
    rw [if_pos (by omega), Res.bind_ok, if_pos (by omega), Res.bind_ok, if_neg (by omega), if_pos (by omega), Res.bind_ok, if_pos (by omega),
      Res.bind_ok, if_pos (by omega), Res.bind_ok, show (20 + 6 * ps.length - 20) / 6 = ps.length by omega]
    have := readPeers_compact junk ps [] hps
    rw [List.append_nil] at this
    rw [this]
    rfl
  simp only [step, dispatch, Bool.false_eq_true, if_false, onReply, onAnnounce, if_neg hn, hg, Res.bind_ok, validResponse, hl]
  simp only [beq_self_eq_true, Bool.and_self, if_true, Res.bind_ok, Res.pure_eq]
  rw [dispatch_true]
  simp [sent]

/-- C42: an announce of a tracker without connection begins with a connect request of the protocol's layout; one with a
connection is sent with its id. Both carry the new transaction id, which is kept for the comparison. -/
theorem C42_asked (s : Sys) (e : Env) (tx : Nat) (hh : e.hash.length = 20) (hp : e.peerId.length = 20) :
    (s.t.state.rank < TState.connected.rank ∧ step s (.announce e tx) = .ok
      (⟨{ s.t with state := .connecting, last := ⟨0, tx⟩ }, s.waiting ++ [.connect]⟩, [.send .connect (connectRequest tx)])) ∨
    (TState.connected.rank ≤ s.t.state.rank ∧ step s (.announce e tx) = .ok
      (⟨{ s.t with state := .announcing, last := ⟨1, tx⟩ }, s.waiting ++ [.announce]⟩,
        [.send .announce (announceRequest s.t.connectionId tx e.hash e.peerId e.downloaded e.left e.uploaded e.finished e.key e.numWant e.port)])) := by
  by_cases h : s.t.state.rank < TState.connected.rank
  · exact .inl ⟨h, by simp [step, announce, h, connect, createConnectRequest, sent, connectRequest, actConnect]⟩
  · refine .inr ⟨by omega, ?_⟩
    simp [step, announce, h, createAnnounceRequest, sent, announceRequest, actAnnounce, List.take_of_length_le (Nat.le_of_eq hh),
      List.take_of_length_le (Nat.le_of_eq hp)]

/-- C42: when the wait ends without a reply, each callback reports one failure, nothing is sent and nothing is awaited any
more; the numbers and the connection id stay. -/
theorem C42_closed (s : Sys) (junk : Addr) (e : Env) (tx : Nat) :
    ∃ s', step s (.close junk e tx) = .ok (s', List.replicate s.waiting.length .fail) ∧ s'.waiting = [] ∧ s'.t = { s.t with state := s'.t.state } ∧
      s'.t.state.rank ≤ max s.t.state.rank TState.offline.rank := by
  have key : ∀ (ks : List Kind) (t : Tracker) (o : List Out), ∃ t', closeAll junk e tx ks t o = .ok (t', o ++ List.replicate ks.length .fail) ∧
      t' = { t with state := t'.state } ∧ t'.state.rank ≤ max t.state.rank TState.offline.rank := by
    intro ks
    induction ks with
    | nil => intro t o; exact ⟨t, by simp [closeAll], rfl, Nat.le_max_left _ _⟩
    | cons k ks ih =>
      intro t o
      have hk : onReply junk k t e tx [] = .ok (false, (fail t).1, [.fail]) := by cases k <;> rfl
      have hf : (fail t).1.state.rank ≤ max t.state.rank TState.offline.rank := by
        simp only [fail]
        split
        · exact Nat.le_max_right _ _
        · split
          · exact Nat.le_trans (by omega) (Nat.le_max_left _ _)
          · exact Nat.le_trans (by omega) (Nat.le_max_left _ _)
      obtain ⟨t', h1, h2, h3⟩ := ih (fail t).1 (o ++ [.fail])
      refine ⟨t', ?_, ?_, ?_⟩
      · simp only [closeAll, hk, Res.bind_ok, h1, List.length_cons, List.replicate_succ, List.append_assoc, List.singleton_append]
      · rw [h2]; rfl
      · exact Nat.le_trans h3 (Nat.max_le.mpr ⟨hf, Nat.le_max_right _ _⟩)
  obtain ⟨t', h1, h2, h3⟩ := key s.waiting s.t []
  exact ⟨⟨t', []⟩, by simp [step, h1], rfl, h2, h3⟩

/-- Histories as the timers of Core/TrackerManager.cpp make them, where an announce is started only when nothing is
awaited, with transaction ids other than 0 and no datagrams of less than 8 bytes. -/
inductive OrderlyReach : Sys → Prop
  | start : OrderlyReach {}
  | announce {s s' e tx o} : OrderlyReach s → s.waiting = [] → tx ≠ 0 → step s (.announce e tx) = .ok (s', o) → OrderlyReach s'
  | datagram {s s' junk e tx d o} : OrderlyReach s → 8 ≤ d.length → tx ≠ 0 → step s (.datagram junk e tx d) = .ok (s', o) → OrderlyReach s'
  | close {s s' junk e tx o} : OrderlyReach s → step s (.close junk e tx) = .ok (s', o) → OrderlyReach s'

/-- The one wait there is belongs to the last request. -/
private def Agree (s : Sys) : Prop :=
  s.waiting = [] ∨ (s.t.last.transaction ≠ 0 ∧ ((s.waiting = [.connect] ∧ s.t.last.action = 0) ∨ (s.waiting = [.announce] ∧ s.t.last.action = 1)))

private theorem announce_agree (t : Tracker) (e : Env) (tx : Nat) (h : tx ≠ 0) : Agree ⟨(announce t e tx).1, sent (announce t e tx).2⟩ := by
  unfold announce
  split <;> simp [Agree, connect, createConnectRequest, createAnnounceRequest, sent, h, actConnect, actAnnounce]

private theorem one_of {s : Sys} (hs : Agree s) {pre post : List Kind} {k : Kind} (h : s.waiting = pre ++ k :: post) : pre = [] ∧ post = [] := by
  have : s.waiting.length ≤ 1 := by
    rcases hs with hs | ⟨_, ⟨hs, _⟩ | ⟨hs, _⟩⟩ <;> simp [hs]
  rw [h, List.length_append, List.length_cons] at this
  exact ⟨List.length_eq_zero_iff.mp (by omega), List.length_eq_zero_iff.mp (by omega)⟩

private theorem datagram_agree {s s' : Sys} {junk : Addr} {e : Env} {tx : Nat} {d : List UInt8} {o : List Out} (hs : Agree s) (hd : d ≠ [])
    (htx : tx ≠ 0) (h : step s (.datagram junk e tx d) = .ok (s', o)) : Agree s' := by
  have hl : d.length ≠ 0 := by simpa using hd
  rcases dispatch_ok hd _ _ _ _ _ _ h with ⟨rfl, rfl⟩ | ⟨pre, k, post, t', o', h1, h2, rfl, rfl⟩
  · exact hs
  · obtain ⟨rfl, rfl⟩ := one_of hs h1
    cases k with
    | connect =>
      simp only [onReply, onConnect, if_neg hl] at h2
      obtain ⟨⟨m, c⟩, hg, h2⟩ := Utp.bind_ok_inv h2
      simp only at h2
      split at h2
      · cases h2
        simpa using announce_agree _ e tx htx
      · split at h2 <;> cases h2
        exact .inl (by simp [sent, fail])
    | announce =>
      simp only [onReply, onAnnounce, if_neg hl] at h2
      obtain ⟨⟨m, c⟩, hg, h2⟩ := Utp.bind_ok_inv h2
      simp only at h2
      split at h2
      · cases h2
        exact .inl (by simp [sent])
      · split at h2 <;> cases h2
        exact .inl (by simp [sent, fail])

private theorem ne_of_len {d : List UInt8} (h : 8 ≤ d.length) : d ≠ [] := by rintro rfl; simp at h

private theorem orderly_agree {s : Sys} (h : OrderlyReach s) : Agree s := by
  induction h with
  | start => exact .inl rfl
  | @announce s s' e tx o _ hw htx h _ =>
    have h' : Res.ok (⟨(announce s.t e tx).1, s.waiting ++ sent (announce s.t e tx).2⟩, (announce s.t e tx).2) = Res.ok (s', o) := h
    injection h' with h'
    injection h' with h1 h2
    rw [← h1, hw, List.nil_append]
    exact announce_agree _ _ _ htx
  | datagram _ hd htx h ih => exact datagram_agree ih (ne_of_len hd) htx h
  | close _ h _ =>
    obtain ⟨⟨t, o⟩, _, h⟩ := Utp.bind_ok_inv h
    cases h
    exact .inl rfl

/-- C42 (partial: for orderly histories, see `C42_mistaken_violated`): at most one reply is awaited, that to the
last request. An announce is sent only on the reply to the connect request, with the connection id it gave, and
nothing else sets the connection id. Peers are reported only on the reply to the announce. Each of them is
reported once: the wait is over. -/
theorem C42_orderly_partial {s s' : Sys} (hs : OrderlyReach s) {junk : Addr} {e : Env} {tx : Nat} {d : List UInt8} {o : List Out}
    (hd : 8 ≤ d.length) (h : step s (.datagram junk e tx d) = .ok (s', o)) :
    s.waiting.length ≤ 1 ∧
    (∀ k data, .send k data ∈ o → s.waiting = [.connect] ∧ s'.waiting = [.announce] ∧
      ∃ id rest, d = connectReply s.t.last.transaction id ++ rest ∧ s'.t.connectionId = id ∧ data.take 8 = be64 id) ∧
    (s'.t.connectionId ≠ s.t.connectionId → ∃ rest, d = connectReply s.t.last.transaction s'.t.connectionId ++ rest) ∧
    (∀ r, .result r ∈ o → s.waiting = [.announce] ∧ s'.waiting = [] ∧ CarriesMsg 1 s.t.last.transaction d) := by
  have hne := ne_of_len hd
  have hl : d.length ≠ 0 := by simpa using hne
  have ha := orderly_agree hs
  have h1w : s.waiting.length ≤ 1 := by
    rcases ha with hs | ⟨_, ⟨hs, _⟩ | ⟨hs, _⟩⟩ <;> simp [hs]
  refine ⟨h1w, ?_⟩
  rcases dispatch_ok hne _ _ _ _ _ _ h with ⟨rfl, rfl⟩ | ⟨pre, k, post, t', o', h1, h2, rfl, rfl⟩
  · exact ⟨fun _ _ hk => absurd hk List.not_mem_nil, fun hk => absurd rfl hk, fun _ hk => absurd hk List.not_mem_nil⟩
  · obtain ⟨rfl, rfl⟩ := one_of ha h1
    rw [List.nil_append] at h1
    cases k with
    | connect =>
      have hx : s.t.last.transaction ≠ 0 ∧ s.t.last.action = 0 := by
        rcases ha with hs | ⟨hx, ⟨_, hs⟩ | ⟨hs, _⟩⟩
        · simp [h1] at hs
        · exact ⟨hx, hs⟩
        · simp [h1] at hs
      simp only [onReply, onConnect, if_neg hl] at h2
      obtain ⟨⟨m, c⟩, hg, h2⟩ := Utp.bind_ok_inv h2
      simp only at h2
      split at h2
      · rename_i hv
        simp only [validResponse, Bool.and_eq_true, beq_iff_eq] at hv
        cases h2
        have hr : ∃ rest, d = connectReply s.t.last.transaction c ++ rest := by
          rcases getConnect_ok hg with ⟨_, rest, rfl⟩ | ⟨_, rfl, rfl⟩
          · exact ⟨rest, by rw [hv.1, hv.2, hx.2]; rfl⟩
          · exact absurd hv.2.symm hx.1
        simp only [announce, createAnnounceRequest, TState.rank, show ¬(5 < 5) by omega, if_false]
        refine ⟨?_, fun _ => hr, by simp⟩
        intro k data hk
        simp only [List.nil_append, List.mem_singleton, Out.send.injEq] at hk
        obtain ⟨rfl, rfl⟩ := hk
        obtain ⟨rest, hr⟩ := hr
        exact ⟨h1, rfl, c, rest, hr, rfl, rfl⟩
      · split at h2 <;> cases h2
        exact ⟨by simp [fail], by simp [fail], by simp [fail]⟩
    | announce =>
      have hx : s.t.last.action = 1 := by
        rcases ha with hs | ⟨hx, ⟨hs, _⟩ | ⟨_, hs⟩⟩
        · simp [h1] at hs
        · simp [h1] at hs
        · exact hs
      simp only [onReply, onAnnounce, if_neg hl] at h2
      obtain ⟨⟨m, c⟩, hg, h2⟩ := Utp.bind_ok_inv h2
      simp only at h2
      split at h2
      · rename_i hv
        simp only [validResponse, Bool.and_eq_true, beq_iff_eq] at hv
        cases h2
        have hc := (getAnnounce_ok hg).1
        rw [hv.1, hv.2, hx] at hc
        exact ⟨by simp, by simp, fun r _ => ⟨h1, rfl, hc⟩⟩
      · split at h2 <;> cases h2
        exact ⟨by simp [fail], by simp [fail], by simp [fail]⟩

/-- C42 is false for datagrams of less than 8 bytes: with an announce waiting, each of them is read beyond its
end. -/
theorem C42_short_violated (t : Tracker) (ks : List Kind) (junk : Addr) (e : Env) (tx : Nat) (d : List UInt8) (h0 : d ≠ []) (h8 : d.length < 8) :
    step ⟨t, .announce :: ks⟩ (.datagram junk e tx d) = .ub := by
  have hl : d.length ≠ 0 := by simpa using h0
  have : getAnnounceResponse junk d = .ub := by
    unfold getAnnounceResponse pop32
    by_cases h4 : 4 ≤ d.length
    · rw [if_pos (by omega), Res.bind_ok, if_neg (by omega)]; rfl
    · rw [if_neg (by omega)]; rfl
  simp [step, dispatch, onReply, onAnnounce, h0, this]

/-- C42 is false when the random transaction id of a connect request is 0: any datagram of 1 to 15 bytes is then
taken as the reply, and an announce with the connection id 0 follows. -/
theorem C42_zero_violated (t : Tracker) (ks : List Kind) (junk : Addr) (e : Env) (tx : Nat) (d : List UInt8) (h0 : d ≠ []) (h : d.length < 16)
    (hl : t.last = ⟨0, 0⟩) :
    ∃ data, step ⟨t, .connect :: ks⟩ (.datagram junk e tx d) = .ok
      (⟨{ t with state := .announcing, connectionId := 0, last := ⟨1, tx⟩ }, .announce :: ks⟩, [.send .announce data]) := by
  have hn : d.length ≠ 0 := by simpa using h0
  have hg : getConnectResponse d = .ok ({}, 0) := by
    unfold getConnectResponse
    rw [if_neg (by omega)]; rfl
  simp only [step, dispatch, Bool.false_eq_true, if_false, onReply, onConnect, if_neg hn, hg, Res.bind_ok, validResponse, hl]
  simp only [beq_self_eq_true, Bool.and_self, if_true, Res.bind_ok, Res.pure_eq]
  rw [dispatch_true]
  simp [announce, createAnnounceRequest, TState.rank, sent, actAnnounce]

/-- The interval and the counts of a reply without peers are not reported: the default interval of five minutes
is. -/
theorem C42_no_peers {t : Tracker} {ks : List Kind} {junk : Addr} {e : Env} {tx x interval leechers seeders : Nat}
    (hl : t.last = ⟨1, x⟩) (hx : x < 4294967296) :
    step ⟨t, .announce :: ks⟩ (.datagram junk e tx (announceReply x interval leechers seeders [])) = .ok
      (⟨{ t with state := .announced, leeches := 0, seeds := 0, peers := 0, interval := 300 }, ks⟩, [.result {}]) := by
  have hg : getAnnounceResponse junk (announceReply x interval leechers seeders []) = .ok (⟨1, x⟩, {}) := by
    have h0 : (announceReply x interval leechers seeders []).take 4 = be32 1 := rfl
    have h1 : ((announceReply x interval leechers seeders []).drop 4).take 4 = be32 x := rfl
    have hlen : (announceReply x interval leechers seeders []).length = 20 := rfl
    unfold getAnnounceResponse
    simp only [pop32, List.drop_zero, h0, h1, beVal_be32 _ hx, hlen]
    rfl
  have hn : (announceReply x interval leechers seeders []).length ≠ 0 := by simp [announceReply]
  simp only [step, dispatch, Bool.false_eq_true, if_false, onReply, onAnnounce, if_neg hn, hg, Res.bind_ok, validResponse, hl]
  simp only [beq_self_eq_true, Bool.and_self, if_true, Res.bind_ok, Res.pure_eq]
  rw [dispatch_true]
  simp [sent]

private def exEnv : Env :=
  { hash := List.replicate 20 0xab, peerId := List.replicate 20 0x2d, downloaded := 10, left := 5000000000, uploaded := 3
    finished := false, key := 77, numWant := 100, port := 6881 }

private def exJunk : Addr := ⟨List.replicate 16 (0xee : UInt8), 0, false⟩

/-- The user asks for two announces while the tracker connects and for one more while it announces. The tracker
answers the last connect and the last announce, and that answer comes twice. -/
private def exHistory : List Ev :=
  [.announce exEnv 101, .announce exEnv 102, .datagram exJunk exEnv 103 (connectReply 102 0x1122334455667788), .announce exEnv 104,
    .datagram exJunk exEnv 105 (announceReply 104 1800 3 7 [([10, 0, 0, 1], 6881)]),
    .datagram exJunk exEnv 106 (announceReply 104 1800 3 7 [([10, 0, 0, 1], 6881)])]

/-- C42 is false if announces are asked for while replies are awaited (`Peers::refreshSource`): the callbacks do
not know which request they were made for. In this history all datagrams are genuine, but the second copy of the
announce reply is taken as a connect reply: its interval and number of leechers become the connection id, with
which the next announce is sent. -/
theorem C42_mistaken_violated :
    ∃ s o, run {} exHistory = .ok (s, o) ∧ s.t.connectionId = 1800 * 4294967296 + 3 ∧ s.t.state = .announcing ∧
      .send .announce (announceRequest (1800 * 4294967296 + 3) 106 exEnv.hash exEnv.peerId 10 5000000000 3 false 77 100 6881) ∈ o := by
  have := Res.exists_ok (r := run {} exHistory) (p := fun r : Sys × List Out => r.1.t.connectionId = 1800 * 4294967296 + 3 ∧ r.1.t.state = .announcing ∧
      .send .announce (announceRequest (1800 * 4294967296 + 3) 106 exEnv.hash exEnv.peerId 10 5000000000 3 false 77 100 6881) ∈ r.2) (by decide +kernel)
  obtain ⟨⟨s, o⟩, h1, h2⟩ := this
  exact ⟨s, o, h1, h2⟩

/-- An ordinary history: connect, announce, peers. -/
example : ∃ s o, run {} [.announce exEnv 101, .datagram exJunk exEnv 102 (connectReply 101 9), .datagram exJunk exEnv 103 (announceReply 102 1800 3 7 [([10, 0, 0, 1], 6881), ([10, 0, 0, 2], 80)])] = .ok (s, o) ∧
    s.t.state = .announced ∧ s.waiting = [] ∧ s.t.peers = 2 ∧ s.t.interval = 1800 ∧
    o = [.send .connect (connectRequest 101), .send .announce (announceRequest 9 102 exEnv.hash exEnv.peerId 10 5000000000 3 false 77 100 6881),
      .result { interval := 1800, leech := 3, seed := 7, peers := [⟨[10, 0, 0, 1] ++ List.replicate 12 0xee, 6881, false⟩, ⟨[10, 0, 0, 2] ++ List.replicate 12 0xee, 80, false⟩] }] := by
  have := Res.exists_ok (r := run {} [.announce exEnv 101, .datagram exJunk exEnv 102 (connectReply 101 9), .datagram exJunk exEnv 103 (announceReply 102 1800 3 7 [([10, 0, 0, 1], 6881), ([10, 0, 0, 2], 80)])])
    (p := fun r : Sys × List Out => r.1.t.state = .announced ∧ r.1.waiting = [] ∧ r.1.t.peers = 2 ∧ r.1.t.interval = 1800 ∧
    r.2 = [.send .connect (connectRequest 101), .send .announce (announceRequest 9 102 exEnv.hash exEnv.peerId 10 5000000000 3 false 77 100 6881),
      .result { interval := 1800, leech := 3, seed := 7, peers := [⟨[10, 0, 0, 1] ++ List.replicate 12 0xee, 6881, false⟩, ⟨[10, 0, 0, 2] ++ List.replicate 12 0xee, 80, false⟩] }]) (by decide +kernel)
  obtain ⟨⟨s, o⟩, h1, h2⟩ := this
  exact ⟨s, o, h1, h2⟩

/-- An orderly history in which the reply to the connect request is awaited: the hypotheses of the theorems hold
and the datagrams are told apart. -/
example : OrderlyReach ⟨{ state := .connecting, last := ⟨0, 101⟩ }, [.connect]⟩ ∧
    step ⟨{ state := .connecting, last := ⟨0, 101⟩ }, [.connect]⟩ (.datagram exJunk exEnv 102 (connectReply 100 9)) = .ok (⟨{ state := .connecting, last := ⟨0, 101⟩ }, [.connect]⟩, []) ∧
    step ⟨{ state := .connecting, last := ⟨0, 101⟩ }, [.connect]⟩ (.datagram exJunk exEnv 102 (be32 3 ++ be32 101 ++ ascii "overloaded")) =
      .ok (⟨{ state := .offline, last := ⟨0, 101⟩ }, []⟩, [.fail]) :=
  ⟨.announce (e := exEnv) .start rfl (by decide) rfl, by decide +kernel, by decide +kernel⟩

end Verif
