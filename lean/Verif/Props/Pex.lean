import Verif.Proof.Pex
/-! C46 and C70: peer exchange messages. -/

namespace Verif
open Verif Pex Net Bencode Spec.Exchange

/-- The local data after the ticks `ts`. -/
def Pex.after (hashOf : List UInt8 → Nat) (t0 : Nat) (ts : List (Nat × List Peer)) : Local :=
  ts.foldl (fun l t => update hashOf l t.1 t.2) { dataTime := t0 }

theorem Pex.good_after (hashOf : List UInt8 → Nat) (t0 : Nat) {ts : List (Nat × List Peer)} (h : Usual ts) :
    Good (snaps t0 ts) (after hashOf t0 ts) := good_run hashOf ts (good_init t0) h

/-- To a peer that got a message before, what is sent after any history of IPv4 connections is a whole
message that lists the first 50 of the connections and exactly those that were there at the update
before and no longer are. Missing: IPv6 connections (`C46_ipv6_dropped_violated`); that the list of the
added leaves out what was told before (`C46_again_violated`); and that every update is told
(`C46_skipped_violated`). -/
theorem C46_message_partial (hashOf : List UInt8 → Nat) (t0 : Nat) (ts : List (Nat × List Peer)) (t : Nat × List Peer)
    (h : Usual (ts ++ [t])) (r : Remote) (hr : r.lastSendTime ≠ 0) :
    ∃ l r' out, tick hashOf (after hashOf t0 ts) r t.1 t.2 = .ok (l, r', out) ∧ ∀ d, out = some d →
      Says d r.messageId ((snaps t0 (ts ++ [t])).latest.take 50)
        (fun k => among k (snaps t0 (ts ++ [t])).before ∧ ¬ among k (snaps t0 (ts ++ [t])).latest) := by
  have hg := good_after hashOf t0 h
  have he : update hashOf (after hashOf t0 ts) t.1 t.2 = after hashOf t0 (ts ++ [t]) := by simp [after]
  unfold tick
  simp only [he]
  generalize after hashOf t0 (ts ++ [t]) = l at hg
  unfold remoteUpdate
  generalize minuteAgo t.1 = w
  by_cases h1 : r.lastHash = l.hash ∨ l.hash = 0 ∨ r.peer = false
  · rw [if_pos h1]
    exact ⟨l, r, none, rfl, by simp⟩
  · rw [if_neg h1]
    have hne : l.pexData ≠ [] := fun e => h1 (Or.inr (Or.inl (hg.hash e)))
    have hs := good_says hg hne r.messageId
    by_cases h2 : r.lastSendTime ≠ 0 ∧ w < r.lastSendTime
    · rw [if_pos h2]
      exact ⟨l, r, none, rfl, by simp⟩
    · rw [if_neg h2]
      simp only [hr, ne_eq, not_false_iff, if_true, Res.pure_eq, Res.bind_ok]
      rw [if_pos hs.2]
      refine ⟨l, _, _, rfl, ?_⟩
      intro d hd
      rw [← Option.some.inj hd]
      exact hs.1

/-- The first message to a peer lists the first 50 of the connections and nothing as gone, when some
connection went at the latest update or none ever went. Missing: IPv6 connections; and that an update
without a connection gone follows one with (`C46_first_violated`). -/
theorem C46_first_partial (hashOf : List UInt8 → Nat) (t0 : Nat) (ts : List (Nat × List Peer)) (t : Nat × List Peer)
    (h : Usual (ts ++ [t])) (r : Remote) (hr : r.lastSendTime = 0)
    (hfirst : (snaps t0 (ts ++ [t])).shrunk = false ∨
      ∃ p ∈ (snaps t0 (ts ++ [t])).before, ¬ among (wire p.addr) (snaps t0 (ts ++ [t])).latest) :
    ∃ l r' out, tick hashOf (after hashOf t0 ts) r t.1 t.2 = .ok (l, r', out) ∧ ∀ d, out = some d →
      Says d r.messageId ((snaps t0 (ts ++ [t])).latest.take 50) (fun _ => False) := by
  have hg := good_after hashOf t0 h
  have he : update hashOf (after hashOf t0 ts) t.1 t.2 = after hashOf t0 (ts ++ [t]) := by simp [after]
  unfold tick
  simp only [he]
  generalize after hashOf t0 (ts ++ [t]) = l at hg
  unfold remoteUpdate
  generalize minuteAgo t.1 = w
  by_cases h1 : r.lastHash = l.hash ∨ l.hash = 0 ∨ r.peer = false
  · rw [if_pos h1]
    exact ⟨l, r, none, rfl, by simp⟩
  · rw [if_neg h1]
    have hne : l.pexData ≠ [] := fun e => h1 (Or.inr (Or.inl (hg.hash e)))
    obtain ⟨d, hd1, hd2, hd3⟩ := says_first hg hne r.messageId hfirst
    simp only [hr, ne_eq, not_true_eq_false, false_and, if_false, hd1, Res.bind_ok]
    rw [if_pos hd3]
    refine ⟨l, _, _, rfl, ?_⟩
    intro d' hd'
    rw [← Option.some.inj hd']
    exact hd2

/-- A message is sent whenever the peer can take it, the data differ from what it was sent last and a
minute has passed since; after it the peer counts as told. Missing: as before. -/
theorem C46_sent_partial (hashOf : List UInt8 → Nat) (l : Local) (r : Remote) (t : Nat × List Peer) (h60 : 60 ≤ t.1)
    (h64 : t.1 < 2 ^ 64) {l' : Local} {r' : Remote} {out : Option (List UInt8)} (h : tick hashOf l r t.1 t.2 = .ok (l', r', out)) :
    (out.isSome ↔ r.peer = true ∧ l'.hash ≠ 0 ∧ r.lastHash ≠ l'.hash ∧ (r.lastSendTime = 0 ∨ r.lastSendTime + 60 ≤ t.1)) ∧
    r' = (if out.isSome then { r with lastSendTime := t.1, lastHash := l'.hash } else r) := by
  unfold tick at h
  generalize update hashOf l t.1 t.2 = l1 at h
  simp only at h
  unfold remoteUpdate at h
  by_cases h1 : r.lastHash = l1.hash ∨ l1.hash = 0 ∨ r.peer = false
  · rw [if_pos h1] at h
    simp only [Res.bind_ok, Res.pure_eq, Res.ok.injEq, Prod.mk.injEq] at h
    obtain ⟨rfl, rfl, rfl⟩ := h
    simp only [Option.isSome_none, Bool.false_eq_true, false_iff, if_false, and_true]
    rintro ⟨a, b, c, _⟩
    rcases h1 with h1 | h1 | h1
    · exact c h1
    · exact b h1
    · simp [h1] at a
  · rw [if_neg h1] at h
    simp only [not_or, Bool.not_eq_false] at h1
    rw [show minuteAgo t.1 = t.1 - 60 from if_pos h60] at h
    by_cases h2 : r.lastSendTime ≠ 0 ∧ t.1 - 60 < r.lastSendTime
    · rw [if_pos h2] at h
      simp only [Res.bind_ok, Res.pure_eq, Res.ok.injEq, Prod.mk.injEq] at h
      obtain ⟨rfl, rfl, rfl⟩ := h
      simp only [Option.isSome_none, Bool.false_eq_true, false_iff, if_false, and_true]
      rintro ⟨_, _, _, d⟩
      rcases d with d | d
      · exact h2.1 d
      · omega
    · rw [if_neg h2] at h
      have key : ∀ d : List UInt8, (do
          let x ← (if 5 < d.length then pure ({ r with lastSendTime := t.1, lastHash := l1.hash }, some (d.set 5 r.messageId)) else Res.ub)
          pure (l1, x.1, x.2)) = Res.ok (l', r', out) →
          (out.isSome ↔ r.peer = true ∧ l'.hash ≠ 0 ∧ r.lastHash ≠ l'.hash ∧ (r.lastSendTime = 0 ∨ r.lastSendTime + 60 ≤ t.1)) ∧
          r' = (if out.isSome then { r with lastSendTime := t.1, lastHash := l'.hash } else r) := by
        intro d hd
        by_cases h5 : 5 < d.length
        · rw [if_pos h5] at hd
          simp only [Res.bind_ok, Res.pure_eq, Res.ok.injEq, Prod.mk.injEq] at hd
          obtain ⟨rfl, rfl, rfl⟩ := hd
          simp only [Option.isSome_some, true_iff, if_true, and_true]
          exact ⟨h1.2.2, h1.2.1, h1.1, by omega⟩
        · rw [if_neg h5] at hd
          cases hd
      by_cases h3 : r.lastSendTime ≠ 0
      · rw [if_pos h3] at h
        exact key _ h
      · rw [if_neg h3] at h
        cases hc : createFirst l1 with
        | ok d => rw [hc] at h; exact key d h
        | ub => rw [hc] at h; cases h
        | diverge => rw [hc] at h; cases h

/-- There is something to send unless there are no connections and none has gone. Missing: IPv6
connections. -/
theorem C46_something_partial (hashOf : List UInt8 → Nat) (t0 : Nat) (ts : List (Nat × List Peer)) (h : Usual ts) :
    (after hashOf t0 ts).pexData = [] ↔
      (snaps t0 ts).latest = [] ∧ ∀ k, ¬ (among k (snaps t0 ts).before ∧ ¬ among k (snaps t0 ts).latest) := by
  have hg := good_after hashOf t0 h
  obtain ⟨ds, d1, d2, d3, d4, _⟩ := hg.data
  rw [d4]
  have hds : ds = [] ↔ ∀ k, ¬ (among k (snaps t0 ts).before ∧ ¬ among k (snaps t0 ts).latest) := by
    constructor
    · rintro rfl k hk
      have := (d3 k).mpr hk
      simp at this
    · intro hk
      cases hc : ds with
      | nil => rfl
      | cons a as => exact absurd ((d3 (wire a)).mp (by rw [hc]; simp)) (hk _)
  rw [← hds]
  constructor
  · intro h1
    split at h1
    · assumption
    · exfalso
      have := congrArg List.length h1
      rw [whole_length] at this
      simp at this
  · intro h1
    rw [if_pos h1]

/-! ### Reading -/

/-- A peer exchange message that is a bencoded dictionary is read exactly: the whole addresses of each
entry, in order, and the flags if there are as many. Missing: bytes that are not the encoding of a value
(`C70_size_violated`). The parser reads one byte behind the message, hence `after`. -/
theorem C70_exact_partial (kvs : List (List UInt8 × BVal)) (hfits : fitsDict kvs) (hcnt : 1 + countDict kvs < 65536) (fuel : Nat)
    (after : List UInt8) (hfuel : (BVal.dict kvs).enc.length ≤ fuel) (hafter : after ≠ []) :
    load fuel (BVal.dict kvs).enc after = .ok (some (inDict kvs)) := load_any hfits hcnt fuel after hfuel hafter

/-- Any other value is ignored. Missing: as before. -/
theorem C70_other_partial (v : BVal) (hv : ∀ kvs, v ≠ .dict kvs) (hfits : v.fits) (hcnt : v.count < 65536) (fuel : Nat)
    (after : List UInt8) (hfuel : v.enc.length ≤ fuel) (hafter : after ≠ []) :
    load fuel v.enc after = .ok none := load_other hv hfits hcnt fuel after hfuel hafter

/-- A message whose text claims a size of 4294967295, which is taken for -1, ends the program: the
vector is asked for an absurd size. -/
theorem C70_size_violated : load 100 (ascii "d5:added4294967295:e") [0] = .ub := by decide +kernel

/-- As before, with a length taken for -6, which makes `reserve` throw: the rest of the message is well formed,
and under another name the text does no harm. -/
theorem C70_reserve_violated :
    load 100 (ascii "d5:added7052336300026:abcdefghijklmnopqrstuvwxyzi0ee") [0] = .ub ∧
    load 100 (ascii "d5:addex7052336300026:abcdefghijklmnopqrstuvwxyzi0ee") [0] = .ok (some {}) := by
  decide +kernel

example : fitsDict [(ascii "added", .str [1, 2, 3, 4, 26, 225, 9]), (ascii "added.f", .str [2]), (ascii "x", .int 3)] ∧
    inDict [(ascii "added", .str [1, 2, 3, 4, 26, 225, 9]), (ascii "added.f", .str [2]), (ascii "x", .int 3)] =
      { added := [⟨[1, 2, 3, 4] ++ List.replicate 12 0, 6881, false⟩], addedFlags := some [2] } := by
  constructor
  · simp only [fitsDict, BVal.fits, and_true]; decide +kernel
  · decide +kernel

example : load 100 (ascii "l1:ae") [0] = .ok none ∧ load 100 (ascii "de") [0] = .ok (some {}) := by decide +kernel

/-! ### Where it fails -/

namespace PexEx

def a (n : UInt8) : Addr := ⟨[1, 2, 3, n] ++ List.replicate 12 0, 6881, false⟩
def b (n : UInt8) : Addr := ⟨[32, 1, 13, n] ++ List.replicate 12 0, 6881, true⟩
def p (n : UInt8) : Peer := ⟨a n, n⟩
def q (n : UInt8) : Peer := ⟨b n, n⟩
def l0 : Local := { dataTime := 0 }
def r0 : Remote := { messageId := 3, peer := true }
/-- Some function in place of SHA-1. -/
def h (l : List UInt8) : Nat := l.foldl (fun s x => s * 3 + x.toNat) 1

/-- What the peer reads in the messages it is sent. -/
def told : Res (List (Option (List UInt8))) → List (Option (Res (Option Msg)))
  | .ok outs => outs.map (fun o => o.map (fun d => load 100 (d.drop 6) [0]))
  | _ => []

end PexEx

open PexEx in
/-- A peer connected all the time is listed as added in the second message as well. -/
theorem C46_again_violated : told (Pex.run h l0 r0 [(60, [p 1]), (120, [p 1, p 2])]) =
    [some (.ok (some { added := [a 1], addedFlags := some [1] })), some (.ok (some { added := [a 1, a 2], addedFlags := some [1, 2] }))] := by
  decide +kernel

open PexEx in
/-- A first message built after an update without a connection gone, which follows one with, is cut at
the place the older one had: here less than four bytes remain and the length is written to memory that
is not its own. -/
theorem C46_first_violated : Pex.run h (Pex.after h 0 [(60, [p 1, p 2]), (120, [])]) r0 [(180, [p 3])] = .ub := by decide +kernel

open PexEx in
/-- With one peer more, something remains after such a cut, but it is no extended message: its fifth
byte is not 20. -/
theorem C46_first_garbage_violated :
    (match Pex.run h (Pex.after h 0 [(60, [p 1]), (120, [])]) r0 [(180, [p 3, p 4])] with
      | .ok [some d] => decide (d[4]? ≠ some 20)
      | _ => false) = true := by decide +kernel

open PexEx in
/-- A disconnected IPv6 peer is told as three IPv4 addresses that were never connected. -/
theorem C46_ipv6_dropped_violated : told (Pex.run h l0 r0 [(60, [p 1, q 2]), (120, [p 1])]) =
    [some (.ok (some { added := [a 1], addedFlags := some [1] })),
     some (.ok (some {
       added := [a 1], addedFlags := some [1],
       dropped := [⟨[32, 1, 13, 2] ++ List.replicate 12 0, 0, false⟩, ⟨[0, 0, 0, 0] ++ List.replicate 12 0, 0, false⟩,
                   ⟨[0, 0, 0, 0] ++ List.replicate 12 0, 6881, false⟩] }))] := by
  decide +kernel

open PexEx in
/-- The update of second 120 is never told to the peer that was sent its first message at second 100:
peer 1 has gone, and no message says so. -/
theorem C46_skipped_violated : told (Pex.run h (Pex.after h 0 [(60, [p 1, p 2])]) r0
      [(100, [p 1, p 2]), (120, [p 2]), (180, [p 2, p 3])]) =
    [some (.ok (some { added := [a 1, a 2], addedFlags := some [1, 2] })), none,
     some (.ok (some { added := [a 2, a 3], addedFlags := some [2, 3] }))] := by
  decide +kernel

/-! ### Examples -/

open PexEx in
example : Usual ([(60, [p 1, p 2]), (120, [p 2])] ++ [(180, [p 2, p 3])]) := by
  unfold Usual V4
  simp [p, a]

open PexEx in
example : (snaps 0 [(60, [p 1, p 2]), (120, [p 2])]).shrunk = true ∧ among (wire (a 1)) (snaps 0 [(60, [p 1, p 2]), (120, [p 2])]).before ∧
    ¬ among (wire (a 1)) (snaps 0 [(60, [p 1, p 2]), (120, [p 2])]).latest := by decide +kernel

open PexEx in
example : told (Pex.run h (Pex.after h 0 [(60, [p 1, p 2])]) { messageId := 3, peer := true, lastSendTime := 50 } [(120, [p 2])]) =
    [some (.ok (some { added := [a 2], addedFlags := some [2], dropped := [a 1] }))] := by decide +kernel

open PexEx in
example : told (Pex.run h (Pex.after h 0 [(60, [p 1, p 2])]) r0 [(120, [p 2])]) =
    [some (.ok (some { added := [a 2], addedFlags := some [2], dropped := [] }))] := by decide +kernel

open PexEx in
example : (Pex.after h 0 [(60, [p 1])]).pexData ≠ [] ∧ (Pex.after h 0 [(60, [])]).pexData = [] := by decide +kernel

end Verif
