import Verif.Proof.DhtLookup
/-! C37: DHT lookups. -/

namespace Verif
open Verif Net Dht Spec

private def exMe : Id := List.replicate 20 9
private def exTarget : Id := List.replicate 20 0
/-- A node whose distance to `exTarget` starts with the bytes `a`, `b`. -/
private def exNode (a b : UInt8) : NodeInfo := ⟨a :: b :: List.replicate 18 1, ⟨b :: List.replicate 15 a, 6881, false⟩⟩

/-- C37, both kinds of lookup and every history of answers, wrong answers, stray packets and timeouts: at most
32 candidates, no id twice among the candidates and the nodes taken from them, none of them this node, one
query for each node taken, and at most 5 requests counted beyond those of the start. Missing: the nodes
queried at the start (see `C37_requeried_violated`) and requests no longer counted
(`C37_outstanding_violated`). -/
theorem C37_lookup_partial (k : Kind) (me target : Id) (ht : target.length = 20) (nodes : List NodeInfo) (es : List LEv)
    (he : ∀ i ns p, LEv.answer i ns p ∈ es → ∀ n ∈ ns, n.id.length = 20) :
    GoodLookup me nodes ((Lookup.start nodes).run k me target es) :=
  (inv_run k me target ht nodes es _ (inv_start me nodes) he).1

/-- A node names seven others, which are queried five at a time. -/
example : (Lookup.run .getPeers exMe exTarget (Lookup.start [exNode 128 1])
      [.answer 0 ((List.range 7).map fun i => exNode 64 (UInt8.ofNat i)) 0, .answer 0 [exNode 64 1, exNode 32 5, ⟨exMe, ⟨[], 1, false⟩⟩] 3, .timeout 2]).sent
    = [exNode 128 1, exNode 64 0, exNode 64 1, exNode 64 2, exNode 64 3, exNode 64 4, exNode 64 5, exNode 64 6] := by decide +kernel

/-- C37, the nodes of one answer while fewer than 32 nodes have been taken or if none is farther, by the place
of the highest bit, than the node answering: a candidate or a new node that is not among the candidates
afterwards has been left out of a full list in which, by the place of the highest bit of the distance, none is
farther. Missing: distances with the same highest bit (`C37_exact_violated`) and nodes farther than the one
answering once 32 have been taken (`C37_far_violated`). -/
theorem C37_keeps_closest_partial (me target : Id) (ht : target.length = 20) (used to «from» : List NodeInfo) (minDistance : Nat)
    (hids : ∀ n ∈ to ++ «from», n.id.length = 20) (hlen : to.length ≤ 32) (hdist : (to.map (·.id)).Nodup)
    (hfresh : ∀ n ∈ to, n.id ∉ used.map (·.id)) (huse : ∀ n ∈ to, Usable me n)
    (hroom : used.length < 32 ∨ ∀ n ∈ «from», logDistance target n ≤ minDistance)
    (d : NodeInfo) (hd : d ∈ to ∨ (d ∈ «from» ∧ d.id ∉ used.map (·.id) ∧ Usable me d))
    (hout : d.id ∉ (mergeClosestNodes me target used 32 minDistance to «from»).map (·.id)) :
    (mergeClosestNodes me target used 32 minDistance to «from»).length = 32 ∧
    ∀ y ∈ mergeClosestNodes me target used 32 minDistance to «from», logDistance target y ≤ logDistance target d := by
  have hg : GoodList me used to := ⟨hlen, hdist, hfresh, huse, fun n h => hids n (List.mem_append_left _ h)⟩
  obtain ⟨_, h2, h3⟩ := merge_good me target ht used minDistance «from» to (fun n h => hids n (List.mem_append_right _ h)) hg
  have : Settled target d (mergeClosestNodes me target used 32 minDistance to «from») := by
    rcases hd with hd | ⟨h4, h5, h6⟩
    · exact h2 d (.inl (List.mem_map.mpr ⟨d, hd, rfl⟩))
    · exact h3 d h4 h5 h6 (hroom.imp_right fun h => h d h4)
  rcases this with h | h
  · exact absurd h hout
  · exact h

/-- 32 candidates and two new nodes, a closer one that replaces the farthest and a farther one left out. -/
example :
    let to := exNode 128 0 :: (List.range 31).map fun i => exNode 64 (UInt8.ofNat i)
    mergeClosestNodes exMe exTarget [] 32 160 to [exNode 32 7, exNode 128 7] = to.set 0 (exNode 32 7) := by decide +kernel

/-- C37: once 50 peers have been found no event leads to another query for peers, whatever the state. -/
theorem C37_stops (me target : Id) (l : Lookup) (e : LEv) (h : 50 ≤ (l.step .getPeers me target e).found) :
    (l.step .getPeers me target e).sent = l.sent := by
  have hp : ∀ x : Lookup, 50 ≤ (Lookup.pump .getPeers target x).found → (Lookup.pump .getPeers target x).sent = x.sent := by
    intro x hx
    rw [pump_found] at hx
    unfold Lookup.pump
    simp only
    rw [if_neg (show ¬ x.found < 50 by omega)]
    split <;> rfl
  cases e <;> simp only [Lookup.step] at h ⊢ <;> split <;> first | rfl | skip
  all_goals
    rename_i r hr
    simp only [hr] at h
    exact hp _ h

/-- Of two answers with 30 peers each, the second leads to no further query, although a node is left to ask. -/
example :
    let l := Lookup.run .getPeers exMe exTarget (Lookup.start [exNode 128 1, exNode 128 2]) [.answer 0 ((List.range 7).map fun i => exNode 64 (UInt8.ofNat i)) 30]
    l.sent.length = 6 ∧ l.found = 30 ∧ (l.step .getPeers exMe exTarget (.answer 0 [] 30)).found = 60 ∧ (l.step .getPeers exMe exTarget (.answer 0 [] 30)).sent = l.sent
      ∧ l.received ≠ [] := by decide +kernel

/-- C37 is false for the exact distance: of the candidates with the same highest bit the first is replaced,
not the farthest, so that a closer node is dropped and a farther one kept. -/
theorem C37_exact_violated : ∃ (me target : Id) (to «from» : List NodeInfo) (d y : NodeInfo),
    d ∈ to ∧ d ∉ mergeClosestNodes me target [] 32 160 to «from» ∧ y ∈ mergeClosestNodes me target [] 32 160 to «from» ∧
    xorDistance d.id target < xorDistance y.id target :=
  ⟨exMe, exTarget, exNode 64 0 :: (List.range 31).map fun i => exNode 127 (UInt8.ofNat i), [exNode 32 7], exNode 64 0, exNode 127 5, by
    decide +kernel⟩

/-- C37 is false once 32 nodes have been taken: a node farther from the target, by the place of the highest
bit, than the one answering is dropped although the list has room and holds a node farther still. -/
theorem C37_far_violated : ∃ (me target : Id) (used to : List NodeInfo) (minDistance : Nat) (d y : NodeInfo),
    mergeClosestNodes me target used 32 minDistance to [d] = to ∧ to = [y] ∧ Usable me d ∧ d.id ∉ used.map (·.id) ∧
    xorDistance d.id target < xorDistance y.id target :=
  ⟨exMe, exTarget, (List.range 32).map fun i => exNode 64 (UInt8.ofNat i), [exNode 128 0], 100, exNode 127 0, exNode 128 0, by
    decide +kernel, rfl, by unfold Usable; decide +kernel, by decide +kernel, by decide +kernel⟩

/-- C37 is false for the nodes queried at the start: they are not recorded, and when an answer names one of
them it is queried again. -/
theorem C37_requeried_violated (k : Kind) :
    (Lookup.run k exMe exTarget (Lookup.start [exNode 128 1]) [.answer 0 [exNode 128 1] 0]).sent = [exNode 128 1, exNode 128 1] := by
  cases k <;> decide +kernel

/-- The limit of 5 requests at a time does not hold: any packet from a queried node that is not the response
ends the counting of its request, but not the wait for the response. Here 6 requests are outstanding after a
start with one node. -/
theorem C37_outstanding_violated (k : Kind) :
    (Lookup.run k exMe exTarget (Lookup.start [exNode 128 1])
      [.answer 0 ((List.range 7).map fun i => exNode 64 (UInt8.ofNat i)) 0, .stray 0]).pending.length = 6 := by
  cases k <;> decide +kernel

/-- A lookup for peers is reported as finished while a response is still awaited, and once more when that
response comes, after any other packet from the last node queried. -/
theorem C37_early_finish_violated :
    let l := Lookup.run .getPeers exMe exTarget (Lookup.start [exNode 128 1]) [.stray 0]
    l.finished = 1 ∧ l.pending.length = 1 ∧ (l.step .getPeers exMe exTarget (.answer 0 [] 4)).finished = 2 := by decide +kernel

end Verif
