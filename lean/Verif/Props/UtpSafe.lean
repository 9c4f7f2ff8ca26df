import Verif.Proof.UtpSafe
import Verif.Proof.Addr
import Verif.Spec.UtpSafe
/-! C63: streams stay inside their buffers. -/
namespace Verif
open Utp Spec

theorem utp_good_run : ∀ (es : List Event) {s : Stream}, Good s → Orderly es s → Stream.run es s ≠ .ub
  | [], s, h, ho => by rw [Stream.run]; exact nu_ok
  | e :: es, s, h, ho => by
    obtain ⟨o1, o2, o3, o4⟩ := ho
    obtain ⟨n1, n2⟩ := next_good h o1 o2 o3
    rw [Stream.run]
    exact nu_bind n1 fun s' hs => utp_good_run es (n2 s' hs) (o4 s' hs)

theorem utp_good_start {s : Stream} (h : Starts s) : Good s := by
  obtain ⟨id, seq, clock, hid, hseq, h | ⟨hd, hq, h⟩⟩ := h
  · unfold Stream.connect Stream.schedule at h
    obtain ⟨t, ht, h⟩ := bind_ok_inv h
    cases h
    have ht' := packetTimeout_early ht (by simp [Stream.sendSyn, Stream.init, Step.num])
    subst ht'
    refine ⟨⟨inc16 seq, [], [], ⟨?_, .nil, .nil, .nil, ?_, ?_, ?_, ?_, (fun _ h => by cases h), ?_⟩⟩, ⟨?_, ?_⟩, ⟨?_, ?_, ?_, ?_, ?_⟩, ?_, ?_⟩ <;> simp [Stream.sendSyn, Stream.init, inc16]
  · unfold Stream.connectRemote Stream.schedule at h
    obtain ⟨a, h1, h⟩ := bind_ok_inv h
    obtain ⟨t, ht, h⟩ := bind_ok_inv h
    cases h
    have hc := sendState_congr h1
    have ht' := packetTimeout_early ht (by rw [hc]; simp [Step.num])
    subst ht'
    rw [hc]
    refine ⟨⟨seq, [], [], ⟨?_, .nil, .nil, .nil, ?_, ?_, ?_, ?_, (fun _ h => by cases h), ?_⟩⟩, ⟨?_, ?_⟩, ⟨?_, ?_, ?_, ?_, ?_⟩, ?_, ?_⟩ <;> simp [Stream.init] <;> omega

/-- C63: whatever packets arrive, in whatever order and with whatever content, a stream opened by either side
never reads or writes outside its buffers and lists, and its timeout never overflows. -/
theorem C63_memory {s : Stream} (hs : Starts s) {es : List Event} (ho : Orderly es s) : Stream.run es s ≠ .ub :=
  utp_good_run es (utp_good_start hs) ho

/-- C63: the numbers of a packet read from a datagram fit 16 bits, as `Orderly` asks. -/
theorem C63_numbers {data after : List UInt8} {p : Packet} (h : readDatagram data after = .ok (some p)) : p.head.seq < 65536 ∧ p.head.ack < 65536 := by
  unfold readDatagram at h
  obtain ⟨n, _, h⟩ := bind_ok_inv h
  have key : ∀ k, beVal ((data.drop k).take 2) < 65536 := by
    intro k
    have h1 := beVal_lt ((data.drop k).take 2)
    have h2 : 256 ^ ((data.drop k).take 2).length ≤ 256 ^ 2 := Nat.pow_le_pow_right (by omega) (by rw [List.length_take]; omega)
    omega
  split at h
  · cases h
  · obtain ⟨e, _, h⟩ := bind_ok_inv h
    cases h
    exact ⟨key 16, key 18⟩

/-- `Orderly`, checked along the run. -/
def orderlyB : List Event → Stream → Bool
  | [], _ => true
  | e :: es, s =>
    (match e with
      | .packet p => decide (p.head.seq < 65536)
      | .write _ _ => decide (s.step ≠ .synSend)
      | .refresh => !s.closePosted
      | _ => true) &&
    match s.next e with
    | .ok s' => orderlyB es s'
    | _ => true

theorem orderly_of : ∀ (es : List Event) {s : Stream}, orderlyB es s = true → Orderly es s
  | [], s, _ => trivial
  | e :: es, s, h => by
    unfold orderlyB at h
    rw [Bool.and_eq_true] at h
    obtain ⟨h1, h2⟩ := h
    refine ⟨?_, ?_, ?_, fun s' hs => ?_⟩
    · rintro p rfl; simpa using h1
    · rintro d g rfl; simpa using h1
    · rintro rfl; simpa using h1
    · rw [hs] at h2
      exact orderly_of es h2

/-- A peer that opens a stream and misbehaves: data out of order and with gaps, acks of packets never sent,
selective acks of any length, a timeout with data in flight, an end in the middle. -/
def wildPeer : List Event :=
  [.packet ⟨{ typ := 0, seq := 14, ack := 77, wnd := 0 }, [], [1, 2, 3]⟩, .packet ⟨{ typ := 0, seq := 12 }, [], [4]⟩, .finish (some 5),
    .write (List.replicate 3000 9) false, .packet ⟨{ typ := 2, seq := 65535, ack := 48, wnd := 1000 }, [(1, [2, 0, 255, 7]), (1, [])], []⟩, .tick 4000000, .refresh,
    .packet ⟨{ typ := 0, seq := 11, ack := 50 }, [(2, [1])], [5]⟩, .finish none, .tick 2000000, .refresh, .packet ⟨{ typ := 1, seq := 15 }, [], []⟩, .finish (some 1), .tick 40000000, .refresh, .runClose,
    .packet ⟨{ typ := 3 }, [], []⟩, .refresh]

example : ∃ s, Starts s ∧ Orderly wildPeer s ∧ ∃ s', Stream.run wildPeer s = .ok s' ∧ s'.step = .closed ∧ 5 < s'.wire.length := by
  obtain ⟨s, h1, h2⟩ := Res.exists_ok (r := (Stream.init 5 50 0).connectRemote { typ := 4, seq := 10 })
    (p := fun s => orderlyB wildPeer s = true ∧ (match Stream.run wildPeer s with | .ok s' => decide (s'.step = .closed ∧ 5 < s'.wire.length) | _ => false) = true) (by decide +kernel)
  refine ⟨s, ⟨5, 50, 0, by decide, by decide, Or.inr ⟨_, by decide, h1⟩⟩, orderly_of _ h2.1, ?_⟩
  cases hr : Stream.run wildPeer s with
  | ok s' => exact ⟨s', rfl, by simpa [hr] using h2.2⟩
  | ub => exact absurd h2.2 (by simp [hr])
  | diverge => exact absurd h2.2 (by simp [hr])

/-- `Orderly` is needed: with the lambda of `close` held back while the timer fires 23 times, the timeout overflows. -/
example : ∃ s, Starts s ∧ Stream.run (.packet ⟨{ typ := 2 }, [], []⟩ :: (List.replicate 23 [Event.tick 40000000, .refresh]).flatten) s = .ub := by
  obtain ⟨s, h1, h2⟩ := Res.exists_ok (r := (Stream.init 5 50 0).connect)
    (p := fun s => Stream.run (.packet ⟨{ typ := 2 }, [], []⟩ :: (List.replicate 23 [Event.tick 40000000, .refresh]).flatten) s = .ub) (by decide +kernel)
  exact ⟨s, ⟨5, 50, 0, by decide, by decide, Or.inl h1⟩, h2⟩

end Verif
