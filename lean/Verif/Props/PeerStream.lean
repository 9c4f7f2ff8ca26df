import Verif.Proof.PeerStream
import Verif.Props.Encryption
/-! C82: what peers send arrives decrypted and in order, and what is written goes out encrypted. C83: peers are reached in the ways the settings
allow. -/

namespace Verif
open PeerStream Spec.PeerStream

/-- The beginning of a connection of which data is followed: the handshake is running (and nothing is decrypted yet), or there is none or it is over. -/
structure PeerStart {H : Type} (s : State H) : Prop where
  settled : s.remote = true ∨ s.firstWrite = false
  stream : (s.tcp.isSome || s.utp.isSome) = true
  unhandled : s.unhandled = 0
  shaking : s.hs.isSome = true → s.pe = none

/-- Nothing happened yet. -/
def peerWorld {H : Type} (s : State H) : World H :=
  { state := s, inKey := s.pe.map fun k => fun i => k.inKey (k.inPos + i), outKey := s.pe.map fun k => fun i => k.outKey (k.outPos + i) }

theorem peer_start {H : Type} {s : State H} (h : PeerStart s) : PeerStream.Inv (peerWorld s) := by
  refine ⟨h.settled, h.stream, fun x hx => ⟨rfl, rfl, rfl, rfl, Nat.le_refl _, rfl, h.unhandled, h.shaking (by
    have hx : s.hs = some x := hx
    rw [hx]; rfl)⟩, fun _ => ⟨Nat.le_refl _, ?_, ?_, by simp [peerWorld], ?_⟩⟩
  · simp only [peerWorld]; cases s.pe <;> rfl
  · simp only [peerWorld]; cases s.pe <;> rfl
  · unfold Keys
    simp only [peerWorld]
    cases hp : s.pe with
    | none => exact ⟨rfl, rfl⟩
    | some c => exact ⟨c.inPos, c.outPos, rfl, rfl, rfl, rfl, h.unhandled⟩

/-- C82: whatever the handshake does, once it is over the layer above gets exactly what arrived behind it, decrypted, in order, and each byte until it is
used; what it writes goes out in order, encrypted. Until then it gets nothing. For every way the data is cut into pieces. -/
theorem C82_stream {H : Type} (m : Machine H) (hm : Modest m) (c : Config) (s : State H) (hs : PeerStart s) (es : List Event) (hf : ∀ e ∈ es, Fair e) :
    ∃ w, runFrom m c es (peerWorld s) = .ok w ∧ w.base ≤ w.raw.length ∧
      (w.state.hs = none → w.taken ++ w.buffer = apply w.inKey (w.raw.drop w.base) ∧ w.sent = apply w.outKey w.said ∧
        ∀ x ∈ w.shown, x.1 ++ x.2 <+: apply w.inKey (w.raw.drop w.base)) ∧
      (w.state.hs.isSome = true → w.shown = [] ∧ w.buffer = w.raw.drop w.base) := by
  obtain ⟨w, h1, h2⟩ := run_inv m c hm es _ (peer_start hs) hf
  refine ⟨w, h1, ?_, fun h => ⟨(h2.talking h).buffer, (h2.talking h).sent, (h2.talking h).shown⟩, fun h => ?_⟩
  · cases h : w.state.hs with
    | none => exact (h2.talking h).base
    | some x => exact (h2.shaking x h).base
  · obtain ⟨x, hx⟩ := Option.isSome_iff_exists.1 h
    exact ⟨(h2.shaking x hx).shown, (h2.shaking x hx).buffer⟩

/-- C82: when data arrives on a connection whose handshake is over, the layer above is shown all it has not used. -/
theorem C82_shown {H : Type} (m : Machine H) (hm : Modest m) (c : Config) (s : State H) (hs : PeerStart s) (es : List Event) (hf : ∀ e ∈ es, Fair e) (w : World H)
    (hw : runFrom m c es (peerWorld s) = .ok w) (ht : w.state.hs = none) (chunk : List UInt8) (use : List UInt8 → Nat) (hu : ∀ l, use l ≤ l.length) :
    ∃ w' bs, w.step m c (.arrives chunk use) = .ok w' ∧ w'.shown = w.shown ++ [(w.taken, bs)] ∧
      w.taken ++ bs = apply w.inKey ((w.raw ++ chunk).drop w.base) ∧ w'.taken = w.taken ++ bs.take (use bs) ∧ w'.state.hs = none := by
  obtain ⟨w1, h1, h2⟩ := run_inv m c hm es _ (peer_start hs) hf
  cases hw.symm.trans h1
  exact arrives_shown m c (h2.talking ht) ht chunk use hu

theorem pe_search {d pat : List UInt8} : ∀ {fuel pos p : Nat}, Pe.search d pat fuel pos = some p → p < pos + fuel
  | 0, _, _, h => by cases h
  | fuel + 1, pos, p, h => by
    unfold Pe.search at h
    split at h
    · cases h; omega
    · have := pe_search h; omega

/-- C82: the program's handshake is one as C82 needs: it does not use more than it is given. -/
theorem C82_modest {h h' : Pe.Handshake} {data pad out : List UInt8} {n : Nat} (e : Pe.readAsInitiator h data pad = .ok (n, out, h')) : n ≤ data.length := by
  unfold Pe.readAsInitiator at e
  split at e
  · split at e
    · cases e; exact Nat.zero_le _
    · obtain ⟨q, _, e⟩ := mse_bind e
      split at e
      · cases e
      · obtain ⟨q, _, e⟩ := mse_bind e
        cases e; exact Nat.le_refl _
  · obtain ⟨⟨r, h1⟩, e1, e⟩ := mse_bind e
    cases e
    unfold Pe.readPe4 at e1
    split at e1
    · cases e1; exact Nat.zero_le _
    · split at e1
      · cases e1
      · dsimp only at e1
        split at e1
        · cases e1; exact Nat.zero_le _
        · rename_i pos hpos
          have hp := pe_search hpos
          simp only [Res.ok.injEq] at e1
          unfold Pe.readPe4At at e1
          dsimp only at e1
          split at e1
          · cases e1; exact Nat.le_refl _
          · split at e1
            · cases e1; omega
            · cases e1; omega
  · cases e; exact Nat.zero_le _

/-- C83: a peer is reached, plain if it can be, whenever the settings allow a way in which it can be reached, and at most three connections
are tried. (Through a hole punched for it, peers are reached only if uTP may be used.) Missing: peers that are not there when they are tried again, see
below. -/
theorem C83_reached_partial {H : Type} (m : Machine H) (c : Config) (p : Peer) (hole : Bool) (msg : List UInt8) (hmsg : msg ≠ []) :
    (attempt m c p hole msg).1 ≤ 3 ∧
    (attempt m c p hole msg).2 =
      if ((c.tcpOut && p.tcp) || (c.utpOut && p.utp)) && (!hole || c.utpOut) then
        if c.policy ≠ .require ∧ p.plain then .talking false else if c.policy ≠ .refuse ∧ p.encrypted then .talking true else .closed
      else .closed := by
  obtain ⟨h1, h2⟩ := attempt_eq m c p hole msg hmsg
  constructor
  · have : (verdict c p).1 ≤ 1 := by
      unfold verdict
      repeat' split
      all_goals decide
    omega
  · rw [h2]
    congr 1
    unfold verdict
    obtain ⟨_, _, _, c4⟩ := c
    obtain ⟨_, _, p3, p4⟩ := p
    cases c4 <;> cases p3 <;> cases p4 <;> rfl

/-- C83: with `refuse`, nothing is encrypted, and with `require` the first message written is not sent but given to the handshake. -/
theorem C83_policy_partial {H : Type} (m : Machine H) (c : Config) (s : State H) (hs : s.hs = none) (hf : s.firstWrite = true) (hr : s.remote = false) (hp : s.pe = none)
    (hu : (s.tcp.isSome || s.utp.isSome) = true) (data : List UInt8) :
    (c.policy ≠ .require → (write m c s data).2 = [.send data] ∧ (write m c s data).1.hs = none) ∧
    (c.policy = .require → (write m c s data).2 = [.send (m.initiate data).2] ∧ (write m c s data).1.hs = some (m.initiate data).1) := by
  have hw : (!s.remote && s.firstWrite && s.hs.isNone) = true := by simp [hs, hf, hr]
  unfold write startEncryption
  rw [if_pos hw]
  constructor
  · intro h
    simp only [if_neg h, push, hr, hp, hu, hs, Bool.false_eq_true, if_false, if_true]
    exact ⟨trivial, trivial⟩
  · intro h
    simp only [if_pos h, push, hr, hp, hu, Bool.false_eq_true, if_false, if_true]
    exact ⟨trivial, trivial⟩

/-- C82: a handshake that fails ends the connection and shows nothing; what any other one answers is sent, whatever has arrived behind it. -/
theorem C82_shake {H : Type} (m : Machine H) (c : Config) (s : State H) (hs : PeerStart s) (h : H) (hh : s.hs = some h) (buffer : List UInt8) (use : List UInt8 → Nat) (g : Got H)
    (hg : dataReceived m c s buffer use = .ok g) :
    (m.failed (m.read h buffer).2.2 = true → g.acts = [.shut] ∧ g.shown = none) ∧
    (m.failed (m.read h buffer).2.2 = false → bytes g.acts = (m.read h buffer).2.1 ∧ .shut ∉ g.acts) := by
  have hp := hs.shaking (by rw [hh]; rfl)
  have hst := hs.stream
  unfold dataReceived at hg
  rw [hh] at hg
  simp only [shake] at hg
  refine ⟨fun hf => ?_, fun hf => ?_⟩
  · rw [if_pos hf] at hg
    cases hg
    simp only [closeStream, hst, if_true, and_self]
  · rw [if_neg (by rw [hf]; exact Bool.false_ne_true)] at hg
    have hw : ∀ d, (write m c { s with hs := some (m.read h buffer).2.2 } d).2 = [.send d] := by
      intro d
      simp only [write, push, Option.isNone_some, Bool.and_false, Bool.false_eq_true, if_false, hp]
      cases hr : s.remote <;> simp [hst]
    have ha : g.acts = (if (m.read h buffer).2.1 = [] then ({ s with hs := some (m.read h buffer).2.2 }, [])
        else write m c { s with hs := some (m.read h buffer).2.2 } (m.read h buffer).2.1).2 := by
      split at hg
      · split at hg
        · generalize deliver _ _ _ = r at hg
          cases r <;> cases hg
          rfl
        · cases hg; rfl
      · cases hg; rfl
    rw [ha]
    split
    · rename_i he
      rw [he]
      exact ⟨rfl, by simp⟩
    · rw [hw]
      simp [bytes]

/-- C83: connections that were made by the peer, and those that are closed on purpose, are not made again: the layer above is told. -/
theorem C83_told_partial {H : Type} (m : Machine H) (c : Config) (s : State H) (h : s.remote = true ∨ s.manualClose = true) (t : Transport) :
    (connectionClosed m c s t).2 = [.closed] := by
  unfold connectionClosed
  rcases h with h | h <;> simp [h]

/-- C83: a peer that answered and closes the connection then is not tried again, and neither is one with which the encryption failed. -/
theorem C83_answered_partial {H : Type} (m : Machine H) (c : Config) (s : State H) (hk : s.connected = true) (t : Transport)
    (h : (s.hs = none ∧ ((∃ n, s.tcp = some (n + 1)) ∨ (s.tcp = none ∧ ∃ n, s.utp = some (n + 1)))) ∨ (∃ x, s.hs = some x ∧ m.failed x = true)) :
    (connectionClosed m c s t).2 = [.closed] := by
  have hkept : kept m c s = [] := by
    unfold kept
    rcases h with ⟨h1, h2⟩ | ⟨x, h1, h2⟩
    · have : received s ≠ 0 := by
        unfold received
        rcases h2 with ⟨n, h2⟩ | ⟨h2, n, h3⟩
        · rw [h2]; exact Nat.succ_ne_zero n
        · rw [h2, h3]; exact Nat.succ_ne_zero n
      simp only [h1, this, false_and, if_false]
    · simp [h1, h2]
  unfold connectionClosed retryOrClose
  simp only [hk, hkept, Bool.not_true, Bool.false_eq_true, if_false, if_true]
  split <;> rfl

/-- C83: a peer that does not answer to an encrypted first message is connected again in the same way, and is sent the message in plain text, if that is not
against the settings. -/
theorem C83_plain_again_partial {H : Type} (m : Machine H) (c : Config) (hc : c.policy ≠ .require) (s : State H) (hr : s.remote = false) (hm : s.manualClose = false)
    (hk : s.connected = true) (x : H) (hx : s.hs = some x) (hf : m.failed x = false) (hp : s.pe = none) (hi : s.initial ≠ []) (n : Nat) (ht : s.tcp = some n) (t : Transport) :
    ∃ s', connectionClosed m c s t = (s', [.connect .tcp]) ∧ (connectionOpened m c s').2 = [.send s.initial] ∧ (connectionOpened m c s').1.hs = none ∧
      received s' = 0 := by
  have hkept : kept m c s = s.initial := by
    unfold kept
    simp [hx, hf, hc]
  have he : connectionClosed m c s t = ({ s with reconnect := true, tcp := some 0, tcpTried := true }, [.connect .tcp]) := by
    unfold connectionClosed retryOrClose
    simp only [hr, hm, hk, hkept, hi, Bool.not_false, Bool.not_true, Bool.and_self, if_true, Bool.false_eq_true, if_false, reconnectStream, ht, openTcp, Option.isSome_some, Bool.or_true]
  refine ⟨_, he, ?_⟩
  simp only [connectionOpened, sendRetry, if_true, hx, Option.isSome_some]
  unfold write
  simp only [Option.isNone_none, if_neg hc, hr, push, hp, Option.isSome_some, Bool.true_or, Bool.false_eq_true, if_false]
  split <;> simp [received]

/-- C83: a connection is made in one way at a time. -/
theorem C83_one_way_partial {H : Type} (m : Machine H) (c : Config) (s : State H) (hn : s.connected = false) (hr : s.remote = false) (hm : s.manualClose = false) (t : Transport)
    (t' : Transport) (h : (connectionClosed m c s t).2 = [.connect t']) :
    t' ≠ t ∧ ((connectionClosed m c s t).1.utp = none ∨ (connectionClosed m c s t).1.tcp = none) := by
  unfold connectionClosed at h ⊢
  simp only [hr, hm, hn, Bool.not_false, Bool.and_self, if_true] at h ⊢
  split at h
  · rename_i h1
    rw [if_pos h1]
    simp only [openTcp, List.cons.injEq, Act.connect.injEq, and_true] at h ⊢
    subst h
    have : t = .utp := by simp only [Bool.and_eq_true, decide_eq_true_eq] at h1; exact h1.1.1
    subst this
    exact ⟨by decide, Or.inl trivial⟩
  · rename_i h1
    rw [if_neg h1]
    split at h
    · rename_i h2
      rw [if_pos h2]
      simp only [openUtp, List.cons.injEq, Act.connect.injEq, and_true] at h ⊢
      subst h
      have : t = .tcp := by simp only [Bool.and_eq_true, decide_eq_true_eq] at h2; exact h2.1.1
      subst this
      exact ⟨by decide, Or.inr trivial⟩
    · cases h

/-- Connections that cannot be made, one after another: what is asked for each time. -/
def refusals {H : Type} (m : Machine H) (c : Config) (t : Transport) : Nat → State H → State H × List Act
  | 0, s => (s, [])
  | n + 1, s =>
    let r := connectionClosed m c s t
    let q := refusals m c t n r.1
    (q.1, r.2 ++ q.2)

/-- C83 fails: a peer that closed the first connection without an answer, and cannot be reached any more, is tried again at once and without end. -/
theorem C83_endless_violated {H : Type} (m : Machine H) (c : Config) (hc : c.policy ≠ .refuse) (s : State H) (hs : s.hs = none) (hr : s.remote = false)
    (hm : s.manualClose = false) (hk : s.connected = true) (ht : s.tcp = some 0) (hi : s.initial ≠ []) (n : Nat) :
    (refusals m c .tcp n s).2 = List.replicate n (.connect .tcp) := by
  induction n generalizing s with
  | zero => rfl
  | succ n ih =>
    have he : connectionClosed m c s .tcp = ({ s with reconnect := true, tcp := some 0, tcpTried := true }, [.connect .tcp]) := by
      unfold connectionClosed retryOrClose kept
      simp only [hr, hm, hk, hs, received, ht, Bool.not_false, Bool.not_true, Bool.and_self, Bool.false_eq_true, if_true, if_false, true_and, ne_eq, hc, not_false_eq_true, hi,
        reconnectStream, openTcp, Option.isSome_some, Bool.or_true]
    unfold refusals
    rw [he]
    simp only
    rw [ih { s with reconnect := true, tcp := some 0, tcpTried := true } hs hr hm hk rfl hi]
    rfl

namespace PeerStreamEx

/-- A handshake for examples: it starts with the byte 1 and is over at the first byte that arrives, which says whether it is plain. -/
def toy : Machine (Option Bool) where
  initiate := fun _ => (none, [1])
  read := fun h l => match h, l with
    | none, b :: _ => (1, [], some (b == 0))
    | h, _ => (0, [], h)
  failed := fun _ => false
  established := fun h => h.isSome
  plain := fun h => h = some true
  cipher := fun _ => ⟨fun n => UInt8.ofNat n, 3, fun n => UInt8.ofNat n, 5⟩

def strict : Config := ⟨true, true, false, .require⟩

end PeerStreamEx
open PeerStreamEx

example : Modest toy := by
  intro h l
  cases h <;> cases l <;> simp [toy]

example : PeerStart ({ tcp := some 0, firstWrite := false, hs := some none } : State (Option Bool)) := ⟨Or.inr rfl, rfl, rfl, fun _ => rfl⟩

example : (runFrom toy strict [.arrives [2, 7] (fun l => min 1 l.length), .arrives [] (fun _ => 0), .writes [9], .arrives [7, 7] (fun l => l.length)]
      (peerWorld { tcp := some 0, firstWrite := false, hs := some none })).map' (fun w => (w.taken, w.shown, w.base, w.sent)) =
    .ok ([4, 3, 2], [([], [4]), ([4], []), ([4], [3, 2])], 1, [12]) := by decide +kernel

example : attempt toy ⟨true, true, true, .allow⟩ ⟨true, false, false, true⟩ false [1] = (3, .talking true) := by decide +kernel

/-- C83 fails: with `require`, a peer that chooses plain text in its handshake is talked to in plain text. -/
theorem C83_plain_violated : (runFrom toy strict [.arrives [0] (fun l => l.length), .writes [104, 105]]
      (peerWorld { tcp := some 0, firstWrite := false, hs := some none })).map' (fun w => w.sent) = .ok [104, 105] := by decide +kernel

/-- C83 fails: with `require`, what is written before the handshake is over goes out in plain text, in the middle of the handshake. -/
theorem C83_early_violated (s : State (Option Bool)) (hs : s = { tcp := some 0, connected := true }) :
    (write toy strict (write toy strict s [7]).1 [104, 105]).2 = [.send [104, 105]] := by subst hs; decide +kernel

/-- C83 fails: of two messages written before the peer closes the plain connection, only the first one is kept for the encrypted one. -/
theorem C83_lost_violated (c : Config) (hc : c = ⟨true, true, false, .allow⟩) (s : State (Option Bool)) (hs : s = { tcp := some 0, connected := true, tcpTried := true }) :
    (connectionClosed toy c (write toy c (write toy c s [7]).1 [8]).1 .tcp).1.initial = [7] ∧
    (connectionClosed toy c (write toy c (write toy c s [7]).1 [8]).1 .tcp).2 = [.connect .tcp] := by subst hc hs; decide +kernel

end Verif
