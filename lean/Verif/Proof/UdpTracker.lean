import Verif.Model.UdpTracker
import Verif.Spec.UdpTracker
import Verif.Proof.HttpAnnounce
import Verif.Proof.UtpFrame
import Verif.Proof.Addr

namespace Verif.UdpTracker
open Verif Net Http Spec

theorem be32_beVal {l : List UInt8} (h : l.length = 4) : be32 (beVal l) = l :=
  beVal_inj (by simpa using h.symm) (beVal_be32 _ (by simpa [h] using beVal_lt l))

theorem be64_beVal {l : List UInt8} (h : l.length = 8) : be64 (beVal l) = l :=
  beVal_inj (by simpa using h.symm) (beVal_be64 _ (by simpa [h] using beVal_lt l))

theorem pop32_ok {d : List UInt8} {p v : Nat} (h : pop32 d p = .ok v) : p + 4 ≤ d.length ∧ be32 v = (d.drop p).take 4 := by
  unfold pop32 at h
  split at h
  · rename_i hl
    cases h
    exact ⟨hl, be32_beVal (by simp; omega)⟩
  · cases h

theorem pop64_ok {d : List UInt8} {p v : Nat} (h : pop64 d p = .ok v) : p + 8 ≤ d.length ∧ be64 v = (d.drop p).take 8 := by
  unfold pop64 at h
  split at h
  · rename_i hl
    cases h
    exact ⟨hl, be64_beVal (by simp; omega)⟩
  · cases h

theorem take_two (d : List UInt8) (p m n : Nat) : d.drop p = (d.drop p).take m ++ (d.drop (p + m)).take n ++ d.drop (p + m + n) := by
  rw [← List.drop_drop (i := n), ← List.drop_drop (i := m), List.append_assoc, List.take_append_drop, List.take_append_drop]

theorem getConnect_ok {d : List UInt8} {m : Msg} {c : Nat} (h : getConnectResponse d = .ok (m, c)) :
    (16 ≤ d.length ∧ ∃ rest, d = be32 m.action ++ be32 m.transaction ++ be64 c ++ rest) ∨ (d.length < 16 ∧ m = {} ∧ c = 0) := by
  unfold getConnectResponse at h
  split at h
  · rename_i hl
    obtain ⟨a, ha, h⟩ := Utp.bind_ok_inv h
    obtain ⟨x, hx, h⟩ := Utp.bind_ok_inv h
    obtain ⟨v, hv, h⟩ := Utp.bind_ok_inv h
    cases h
    refine .inl ⟨hl, d.drop 16, ?_⟩
    have h1 := take_two d 0 4 4
    rw [List.drop_zero] at h1
    have h2 : d.drop 8 = (d.drop 8).take 8 ++ d.drop 16 := by
      rw [← List.drop_drop (i := 8) (j := 8), List.take_append_drop]
    show d = be32 a ++ be32 x ++ be64 c ++ _
    rw [(pop32_ok ha).2, (pop32_ok hx).2, (pop64_ok hv).2, List.drop_zero, List.append_assoc _ _ (List.drop 16 d), ← h2, ← h1]
  · cases h
    exact .inr ⟨by omega, rfl, rfl⟩

/-- What is in a list of peers. -/
theorem readPeers_sound (junk : Addr) : ∀ (n : Nat) (l : List UInt8) (ps : List Addr), readPeers junk n l = .ok ps →
    ∃ es : List (List UInt8 × Nat), es.length = n ∧ (∀ p ∈ es, p.1.length = 4 ∧ p.2 < 65536) ∧ l = es.flatMap compactPeer ++ l.drop (6 * n) ∧
      ps = es.map fun p => ⟨p.1 ++ junk.bytes.drop 4, p.2, false⟩
  | 0, l, ps, h => by
    cases h
    exact ⟨[], rfl, by simp, by simp, rfl⟩
  | n + 1, l, ps, h => by
    unfold readPeers at h
    split at h
    · rename_i hl
      obtain ⟨a, ha, h⟩ := Utp.bind_ok_inv h
      obtain ⟨r, hr, h⟩ := Utp.bind_ok_inv h
      cases h
      obtain ⟨es, h1, h2, h3, h4⟩ := readPeers_sound junk n _ _ hr
      have hb : (List.take 2 (List.drop 4 l)).length = 2 := by simp; omega
      have hlt := beVal_lt (List.take 2 (List.drop 4 l))
      rw [hb] at hlt
      refine ⟨(l.take 4, beVal ((l.drop 4).take 2)) :: es, by simp [h1], ?_, ?_, ?_⟩
      · intro p hp
        rcases List.mem_cons.1 hp with rfl | hp
        · exact ⟨by simp; omega, hlt⟩
        · exact h2 p hp
      · have e : be16 (beVal ((l.drop 4).take 2)) = (l.drop 4).take 2 :=
          beVal_inj (by simp; omega) (beVal_be16 _ hlt)
        have h5 := take_two l 0 4 2
        rw [List.drop_zero] at h5
        have e6 : 6 * (n + 1) = 6 + 6 * n := by omega
        rw [List.flatMap_cons, compactPeer, e, List.append_assoc, e6, ← List.drop_drop, ← h3, List.append_assoc] 
        rw [List.append_assoc] at h5
        exact h5
      · simp only [Addr.set, Addr.size] at ha
        simp only [Bool.false_eq_true, if_false] at ha
        split at ha
        · cases ha
          rw [List.map_cons, ← h4]
          congr 2
          simp [List.take_take]
        · cases ha
    · cases h

/-- What the fields of a response say about the datagram. -/
theorem getAnnounce_ok {junk : Addr} {d : List UInt8} {m : Msg} {r : Announce} (h : getAnnounceResponse junk d = .ok (m, r)) :
    CarriesMsg m.action m.transaction d ∧ ((d.length < 26 ∧ r = {}) ∨ (26 ≤ d.length ∧
      ∃ es : List (List UInt8 × Nat), ∃ rest, rest.length < 6 ∧ (∀ p ∈ es, p.1.length = 4 ∧ p.2 < 65536) ∧
        d = be32 m.action ++ be32 m.transaction ++ be32 r.interval ++ be32 r.leech ++ be32 r.seed ++ es.flatMap compactPeer ++ rest ∧
        r.peers = es.map fun p => ⟨p.1 ++ junk.bytes.drop 4, p.2, false⟩)) := by
  unfold getAnnounceResponse at h
  obtain ⟨a, ha, h⟩ := Utp.bind_ok_inv h
  obtain ⟨x, hx, h⟩ := Utp.bind_ok_inv h
  have h1 := take_two d 0 4 4
  rw [List.drop_zero] at h1
  have hc : CarriesMsg a x d := ⟨d.drop 8, by rw [(pop32_ok ha).2, (pop32_ok hx).2, List.drop_zero]; exact h1⟩
  split at h
  · cases h
    exact ⟨hc, .inl ⟨by assumption, rfl⟩⟩
  · rename_i hl
    obtain ⟨i, hi, h⟩ := Utp.bind_ok_inv h
    obtain ⟨l, hle, h⟩ := Utp.bind_ok_inv h
    obtain ⟨s, hs, h⟩ := Utp.bind_ok_inv h
    obtain ⟨ps, hps, h⟩ := Utp.bind_ok_inv h
    cases h
    refine ⟨hc, .inr ⟨by omega, ?_⟩⟩
    obtain ⟨es, e1, e2, e3, e4⟩ := readPeers_sound junk _ _ _ hps
    refine ⟨es, (d.drop 20).drop (6 * ((d.length - 20) / 6)), ?_, e2, ?_, e4⟩
    · simp; omega
    · have h2 := take_two d 8 4 4
      have h3 : d.drop 16 = (d.drop 16).take 4 ++ d.drop 20 := by
        rw [← List.drop_drop (i := 4) (j := 16), List.take_append_drop]
      show d = be32 a ++ be32 x ++ be32 i ++ be32 l ++ be32 s ++ _ ++ _
      rw [(pop32_ok ha).2, (pop32_ok hx).2, (pop32_ok hi).2, (pop32_ok hle).2, (pop32_ok hs).2, List.drop_zero]
      simp only [List.append_assoc] at *
      rw [← e3, ← h3, ← h2, ← h1]

theorem hasTx_of_carries {a x : Nat} {d : List UInt8} (h : CarriesMsg a x d) : HasTx x d := by
  obtain ⟨r, rfl⟩ := h
  exact ⟨be32 a, r, rfl, rfl⟩

/-- A callback that does not take a datagram does nothing. One that takes it knows the transaction; it fails
unless the datagram carries the action as well. -/
theorem onReply_ok {junk : Addr} {k : Kind} {t t' : Tracker} {e : Env} {tx : Nat} {d : List UInt8} {r : Bool} {o : List Out}
    (hd : d ≠ []) (hs : 16 ≤ d.length ∨ t.last.transaction ≠ 0) (h : onReply junk k t e tx d = .ok (r, t', o)) :
    (r = false ∧ t' = t ∧ o = []) ∨
      (r = true ∧ HasTx t.last.transaction d ∧ (CarriesMsg t.last.action t.last.transaction d ∨ (t', o) = fail t)) := by
  have hl : d.length ≠ 0 := by simpa using hd
  cases k with
  | connect =>
    simp only [onReply, onConnect, if_neg hl] at h
    obtain ⟨⟨m, c⟩, hg, h⟩ := Utp.bind_ok_inv h
    have hm : m.transaction = t.last.transaction → CarriesMsg m.action m.transaction d := by
      intro hm
      rcases getConnect_ok hg with ⟨_, rest, rfl⟩ | ⟨hl', rfl, rfl⟩
      · exact ⟨be64 c ++ rest, by simp⟩
      · rcases hs with hs | hs
        · omega
        · exact absurd hm.symm hs
    simp only at h
    split at h
    · rename_i hv
      simp only [validResponse, Bool.and_eq_true, beq_iff_eq] at hv
      cases h
      have := hm hv.2
      rw [hv.1, hv.2] at this
      exact .inr ⟨rfl, hasTx_of_carries this, .inl this⟩
    · split at h
      · rename_i hv
        cases h
        have := hm hv
        rw [hv] at this
        exact .inr ⟨rfl, hasTx_of_carries this, .inr rfl⟩
      · cases h
        exact .inl ⟨rfl, rfl, rfl⟩
  | announce =>
    simp only [onReply, onAnnounce, if_neg hl] at h
    obtain ⟨⟨m, a⟩, hg, h⟩ := Utp.bind_ok_inv h
    have hm := (getAnnounce_ok hg).1
    simp only at h
    split at h
    · rename_i hv
      simp only [validResponse, Bool.and_eq_true, beq_iff_eq] at hv
      cases h
      rw [hv.1, hv.2] at hm
      exact .inr ⟨rfl, hasTx_of_carries hm, .inl hm⟩
    · split at h
      · rename_i hv
        cases h
        rw [hv] at hm
        exact .inr ⟨rfl, hasTx_of_carries hm, .inr rfl⟩
      · cases h
        exact .inl ⟨rfl, rfl, rfl⟩

/-- A callback that refuses a datagram does nothing, whatever the datagram. -/
theorem onReply_false {junk : Addr} {k : Kind} {t t' : Tracker} {e : Env} {tx : Nat} {d : List UInt8} {o : List Out}
    (hd : d ≠ []) (h : onReply junk k t e tx d = .ok (false, t', o)) : t' = t ∧ o = [] := by
  have hl : d.length ≠ 0 := by simpa using hd
  cases k with
  | connect =>
    simp only [onReply, onConnect, if_neg hl] at h
    obtain ⟨⟨m, c⟩, _, h⟩ := Utp.bind_ok_inv h
    simp only at h
    split at h
    · cases h
    · split at h <;> cases h
      exact ⟨rfl, rfl⟩
  | announce =>
    simp only [onReply, onAnnounce, if_neg hl] at h
    obtain ⟨⟨m, c⟩, _, h⟩ := Utp.bind_ok_inv h
    simp only at h
    split at h
    · cases h
    · split at h <;> cases h
      exact ⟨rfl, rfl⟩

theorem dispatch_true {junk : Addr} {e : Env} {tx : Nat} {d : List UInt8} : ∀ (ks : List Kind) (t : Tracker) (p : List Kind) (o : List Out),
    dispatch junk e tx d ks true t p o = .ok (⟨t, p ++ ks⟩, o)
  | [], t, p, o => by simp [dispatch]
  | k :: ks, t, p, o => by
    simp only [dispatch, if_true]
    rw [dispatch_true ks]
    simp

/-- At most one callback takes a datagram. -/
theorem dispatch_ok {junk : Addr} {e : Env} {tx : Nat} {d : List UInt8} (hd : d ≠ []) :
    ∀ (ks : List Kind) (t : Tracker) (p : List Kind) (o0 o : List Out) (s' : Sys), dispatch junk e tx d ks false t p o0 = .ok (s', o) →
      (s' = ⟨t, p ++ ks⟩ ∧ o = o0) ∨
      ∃ pre k post t' o', ks = pre ++ k :: post ∧ onReply junk k t e tx d = .ok (true, t', o') ∧ s' = ⟨t', p ++ pre ++ sent o' ++ post⟩ ∧ o = o0 ++ o'
  | [], t, p, o0, o, s', h => by
    cases h
    exact .inl ⟨by simp, rfl⟩
  | k :: ks, t, p, o0, o, s', h => by
    simp only [dispatch, Bool.false_eq_true, if_false] at h
    obtain ⟨⟨r, t', o'⟩, hr, h⟩ := Utp.bind_ok_inv h
    simp only at h
    split at h
    · rename_i hr'
      subst hr'
      rw [dispatch_true] at h
      cases h
      exact .inr ⟨[], k, ks, t', o', rfl, hr, by simp, rfl⟩
    · rename_i hr'
      obtain rfl : r = false := by simpa using hr'
      obtain ⟨rfl, rfl⟩ := onReply_false hd hr
      rcases dispatch_ok hd ks _ _ _ _ _ h with ⟨rfl, rfl⟩ | ⟨pre, k', post, t', o', rfl, h1, rfl, rfl⟩
      · exact .inl ⟨by simp [sent], by simp⟩
      · exact .inr ⟨k :: pre, k', post, t', o', rfl, h1, by simp [sent], by simp⟩

theorem pop32_def {d : List UInt8} {p : Nat} (h : p + 4 ≤ d.length) : ∃ v, pop32 d p = .ok v := by
  simp [pop32, h]

theorem readPeers_def (junk : Addr) : ∀ (n : Nat) (l : List UInt8), 6 * n ≤ l.length → ∃ ps, readPeers junk n l = .ok ps
  | 0, l, _ => ⟨[], rfl⟩
  | n + 1, l, h => by
    obtain ⟨ps, hp⟩ := readPeers_def junk n (l.drop 6) (by simp; omega)
    simp only [readPeers]
    rw [if_pos (by omega), hp, Addr.set, if_pos (by simp [Addr.size]; omega)]
    exact ⟨_, rfl⟩

theorem onReply_def {junk : Addr} {k : Kind} {t : Tracker} {e : Env} {tx : Nat} {d : List UInt8} (hd : d = [] ∨ 8 ≤ d.length ∨ k = .connect) :
    ∃ r, onReply junk k t e tx d = .ok r := by
  by_cases h0 : d.length = 0
  · cases k <;> simp [onReply, onConnect, onAnnounce, h0]
  cases k with
  | connect =>
    have : ∃ r, getConnectResponse d = .ok r := by
      unfold getConnectResponse
      split
      · rename_i h16
        simp [pop32, pop64, show 4 ≤ d.length by omega, show 8 ≤ d.length by omega, h16]
      · exact ⟨_, rfl⟩
    obtain ⟨⟨m, c⟩, hg⟩ := this
    simp only [onReply, onConnect, if_neg h0, hg, Res.bind_ok]
    split
    · exact ⟨_, rfl⟩
    · split <;> exact ⟨_, rfl⟩
  | announce =>
    have h8 : 8 ≤ d.length := by
      rcases hd with rfl | hd | hd
      · simp at h0
      · exact hd
      · cases hd
    have : ∃ r, getAnnounceResponse junk d = .ok r := by
      obtain ⟨a, ha⟩ := pop32_def (d := d) (p := 0) (by omega)
      obtain ⟨x, hx⟩ := pop32_def (d := d) (p := 4) (by omega)
      simp only [getAnnounceResponse, ha, hx, Res.bind_ok]
      split
      · exact ⟨_, rfl⟩
      · obtain ⟨i, hi⟩ := pop32_def (d := d) (p := 8) (by omega)
        obtain ⟨l, hl⟩ := pop32_def (d := d) (p := 12) (by omega)
        obtain ⟨s, hs⟩ := pop32_def (d := d) (p := 16) (by omega)
        obtain ⟨ps, hp⟩ := readPeers_def junk ((d.length - 20) / 6) (d.drop 20) (by simp; omega)
        simp only [hi, hl, hs, hp, Res.bind_ok]
        exact ⟨_, rfl⟩
    obtain ⟨⟨m, c⟩, hg⟩ := this
    simp only [onReply, onAnnounce, if_neg h0, hg, Res.bind_ok]
    split
    · exact ⟨_, rfl⟩
    · split <;> exact ⟨_, rfl⟩

theorem dispatch_def {junk : Addr} {e : Env} {tx : Nat} {d : List UInt8} : ∀ (ks : List Kind) (b : Bool) (t : Tracker) (p : List Kind) (o : List Out),
    (8 ≤ d.length ∨ ∀ k ∈ ks, k = .connect) → ∃ r, dispatch junk e tx d ks b t p o = .ok r
  | [], b, t, p, o, _ => ⟨_, rfl⟩
  | k :: ks, b, t, p, o, h => by
    cases b with
    | true => rw [dispatch_true]; exact ⟨_, rfl⟩
    | false =>
      obtain ⟨⟨r, t', o'⟩, hr⟩ := onReply_def (junk := junk) (k := k) (t := t) (e := e) (tx := tx) (d := d)
        (by rcases h with h | h; exact .inr (.inl h); exact .inr (.inr (h k (by simp))))
      have h' : 8 ≤ d.length ∨ ∀ k ∈ ks, k = .connect := h.imp id fun h k hk => h k (by simp [hk])
      simp only [dispatch, Bool.false_eq_true, if_false, hr, Res.bind_ok]
      split <;> exact dispatch_def ks _ _ _ _ h'

theorem closeAll_def {junk : Addr} {e : Env} {tx : Nat} : ∀ (ks : List Kind) (t : Tracker) (o : List Out), ∃ r, closeAll junk e tx ks t o = .ok r
  | [], t, o => ⟨_, rfl⟩
  | k :: ks, t, o => by
    obtain ⟨⟨r, t', o'⟩, hr⟩ := onReply_def (junk := junk) (k := k) (t := t) (e := e) (tx := tx) (d := []) (.inl rfl)
    simp only [closeAll, hr, Res.bind_ok]
    exact closeAll_def ks _ _

end Verif.UdpTracker
