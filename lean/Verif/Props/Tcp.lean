import Verif.Proof.Tcp
/-! C81: a TCP connection delivers what is sent, in order. -/

namespace Verif
open Tcp Spec.Tcp

/-- C81, receiving: what the receiver has used and what is kept for it are, together, what arrived; each time it is shown all that
it has not used. Missing: the seconds at which the program ends. -/
theorem C81_received_partial (src : List UInt8) (hsrc : src.length < 2 ^ 64) (es : List Event) (channels : Nat) (hf : ∀ e ∈ es, Fair e) :
    ∃ w, run src es channels = .ok w ∧ w.taken ++ w.stream.buffer.data.take w.stream.buffer.pos = src.take w.stream.buffer.counter ∧
      w.stream.buffer.counter ≤ src.length ∧ w.stream.buffer.pos ≤ w.stream.buffer.data.length ∧ ∀ x ∈ w.shown, x.1 ++ x.2 <+: src := by
  obtain ⟨w, h1, h2⟩ := run_inv hsrc es channels hf
  exact ⟨w, h1, h2.holds.eq, h2.holds.counter, h2.holds.pos, h2.shown⟩

/-- C81, receiving: a connection is always waiting for data that there is room for, or for bandwidth. Missing: see above. -/
theorem C81_listening_partial (src : List UInt8) (hsrc : src.length < 2 ^ 64) (es : List Event) (channels : Nat) (hf : ∀ e ∈ es, Fair e) (w : World)
    (hw : run src es channels = .ok w) (hc : w.stream.phase = .connected) :
    w.stream.waitBw = true ∨
      (w.stream.waitData = true ∧ 0 < w.stream.requested ∧ w.stream.buffer.pos + w.stream.requested ≤ w.stream.buffer.data.length) := by
  obtain ⟨w', h1, h2⟩ := run_inv hsrc es channels hf
  cases hw.symm.trans h1
  rcases h2.listening hc with h | h
  · exact Or.inl h
  · exact Or.inr ⟨h, (h2.room h).2, (h2.room h).1⟩

/-- C81, receiving: when `k` bytes arrive on such a connection, and no error, the receiver is shown all of them, behind what it
has not used so far. Missing: see above. -/
theorem C81_shown_partial (src : List UInt8) (hsrc : src.length < 2 ^ 64) (es : List Event) (channels : Nat) (hf : ∀ e ∈ es, Fair e) (w : World)
    (hw : run src es channels = .ok w) (k a j now : Nat) (grants : Nat × Nat) (use : List UInt8 → Nat)
    (he : Fair (.received k a j false now grants use)) (hc : w.stream.phase = .connected) (hd : w.stream.waitData = true)
    (hk : k ≤ w.stream.requested) (hs : w.stream.buffer.counter + k ≤ src.length) :
    ∃ w' bs, w.step src (.received k a j false now grants use) = .ok w' ∧ w'.shown = w.shown ++ [(w.taken, bs)] ∧
      src.take (w.stream.buffer.counter + k) <+: w.taken ++ bs ∧ w'.taken = w.taken ++ bs.take (use bs) := by
  obtain ⟨w', h1, h2⟩ := run_inv hsrc es channels hf
  cases hw.symm.trans h1
  exact received_shown hsrc h2 k a j now grants use he ⟨hc, hd, hk, hs⟩

/-- C81, sending: what is sent and what waits are, together and in order, what was to be sent; a connection is sending the first
one that waits. Missing: writes from another thread while it is being connected. -/
theorem C81_sent_partial (src : List UInt8) (hsrc : src.length < 2 ^ 64) (es : List Event) (channels : Nat) (hf : ∀ e ∈ es, Fair e) :
    ∃ w, run src es channels = .ok w ∧ w.sent ++ w.stream.queue = w.asked ∧
      (w.stream.phase = .connected → w.stream.writing = w.stream.queue.head?) ∧ (w.stream.phase ≠ .connected → w.stream.writing = none) := by
  obtain ⟨w, h1, h2⟩ := run_inv hsrc es channels hf
  exact ⟨w, h1, h2.sent, fun h => by rw [h2.writing, if_pos h], fun h => by rw [h2.writing, if_neg h]⟩

/-- C81, sending: once connected, all that waits is sent if the socket sends. -/
theorem C81_all_sent_partial (src : List UInt8) (hsrc : src.length < 2 ^ 64) (es : List Event) (channels : Nat) (hf : ∀ e ∈ es, Fair e) (w : World)
    (hw : run src es channels = .ok w) (hc : w.stream.phase = .connected) :
    ∃ w', runFrom src (List.replicate w.stream.queue.length .wrote) w = .ok w' ∧ w'.sent = w.asked ∧ w'.stream.queue = [] := by
  obtain ⟨w', h1, h2⟩ := run_inv hsrc es channels hf
  cases hw.symm.trans h1
  exact all_sent _ w h2 hc rfl

/-- C81: an error while connecting or writing ends the connection, and so does one while reading; the receiver is shown nothing then. Missing: what
had arrived in front of an error in reading is lost. -/
theorem C81_error_partial (s : Stream) (grant : Nat) :
    (info s false).phase = .disconnected ∧ (setConnected s false grant).map' (·.phase) = .ok .disconnected ∧
    (handleWrite s false).map' (fun s => (s.phase, s.writing)) = .ok (.disconnected, none) := ⟨rfl, rfl, rfl⟩

/-- C81: when the connection is over, the receiver is shown nothing more, whatever was under way. -/
theorem C81_over_partial (s : Stream) (hs : s.phase = .disconnected) (bs : List UInt8) (now : Nat) (available : List UInt8) (k : Nat) (error : Bool) (grants : Nat × Nat)
    (use : List UInt8 → Nat) : handleReceive s bs now available k error grants use = .ok { stream := { s with waitData := false } } := by
  unfold handleReceive
  rw [if_pos hs]

namespace TcpEx

def some10 : List UInt8 := ascii "0123456789"

def life : List Event := [.write [1], .write [2, 3], .connected 0, .wrote, .received 4 0 0 false 1 (0, 0) (fun l => min 1 l.length), .received 3 0 0 false 2 (0, 0) (fun l => l.length),
  .wrote, .write [4], .broken]

end TcpEx
open TcpEx

example : ∀ e ∈ life, Fair e := by
  intro e he
  simp only [life, List.mem_cons, List.not_mem_nil, or_false] at he
  rcases he with rfl | rfl | rfl | rfl | rfl | rfl | rfl | rfl | rfl <;> simp [Fair, Timely]
  exact fun l => Nat.min_le_right _ _

example : (run some10 life 0).map' (fun w => (w.taken, w.shown, w.sent, w.stream.queue)) =
    .ok (ascii "0123456", [([], ascii "0123"), (ascii "0", ascii "123456")], [[1], [2, 3]], [[4]]) := by decide +kernel

/-! As much as was asked for arrives: what else is there is read too. Less arrives: it is not. -/
example : (run some10 [.connect, .connected 4, .received 4 3 3 false 1 (3, 0) (fun l => l.length)] 1).map' (·.taken) = .ok (ascii "0123456") := by decide +kernel
example : (run some10 [.connect, .connected 4, .received 3 3 3 false 1 (3, 0) (fun l => l.length)] 1).map' (·.taken) = .ok (ascii "012") := by decide +kernel

/-- C81 fails: there are seconds in which receiving anything ends the program; the next one is in January 2038. -/
theorem C81_time_violated : (run some10 [.connect, .connected 0] 0).map' (fun w => w.stream.waitData) = .ok true ∧
    run some10 [.connect, .connected 0, .received 4 0 0 false 2147483648 (0, 0) (fun _ => 4)] 0 = .ub := by
  constructor
  · decide +kernel
  · rfl

/-- C81 fails: of the addresses of a host only the first one is tried, however many there are. -/
theorem C81_addresses_violated (n : Nat) (hn : 1 ≤ n) : nextAddress n 1 = .ok none := by
  unfold nextAddress
  rw [if_neg (by omega)]

/-- C81 fails: bandwidth that was granted and not used is lost. Here 100 bytes are granted; 1 arrives. -/
theorem C81_quota_violated : (run some10 [.connect, .connected 100] 1).map' (fun w => (w.stream.quota, w.stream.waitData)) = .ok (100, true) ∧
    (run some10 [.connect, .connected 100, .received 1 0 0 false 1 (0, 0) (fun _ => 1)] 1).map' (fun w => (w.stream.quota, w.stream.waitData, w.stream.waitBw)) =
      .ok (0, false, true) := by decide +kernel

/-- C81 fails: a write by another thread between the two steps of being connected makes the socket write two messages at once. -/
theorem C81_threads_violated : (doWrite (info (connect {}) true) [1]).bind (fun s => setConnected s true 0) = .ub := by
  decide +kernel

end Verif
