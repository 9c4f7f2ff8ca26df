import Verif.Proof.Http
namespace Verif.Http
open Verif Bencode Spec Net

theorem readPeers_compact (junk : Addr) : ∀ (ps : List (List UInt8 × Nat)) (t : List UInt8), (∀ p ∈ ps, p.1.length = 4 ∧ p.2 < 65536) →
    readPeers junk ps.length (ps.flatMap compactPeer ++ t) = .ok (ps.map fun p => ⟨p.1 ++ junk.bytes.drop 4, p.2, false⟩)
  | [], t, _ => rfl
  | p :: ps, t, h => by
    obtain ⟨h1, h2⟩ := h p List.mem_cons_self
    have he : (p :: ps).flatMap compactPeer ++ t = p.1 ++ (be16 p.2 ++ (ps.flatMap compactPeer ++ t)) := by simp [compactPeer]
    have hl : (be16 p.2).length = 2 := be16_length p.2
    have ht : (p.1 ++ (be16 p.2 ++ (ps.flatMap compactPeer ++ t))).take 4 = p.1 := by rw [← h1]; exact List.take_left' rfl
    have hd : (p.1 ++ (be16 p.2 ++ (ps.flatMap compactPeer ++ t))).drop 4 = be16 p.2 ++ (ps.flatMap compactPeer ++ t) := by
      rw [← h1]; exact List.drop_left' rfl
    have hd6 : (p.1 ++ (be16 p.2 ++ (ps.flatMap compactPeer ++ t))).drop 6 = ps.flatMap compactPeer ++ t := by
      rw [show 6 = 4 + 2 from rfl, ← List.drop_drop, hd, ← hl]; exact List.drop_left' rfl
    rw [he, List.length_cons, readPeers, if_pos (by simp only [List.length_append]; omega), ht, hd, hd6,
      show ((be16 p.2 ++ (ps.flatMap compactPeer ++ t)).take 2) = be16 p.2 by rw [← hl]; exact List.take_left' rfl, beVal_be16 p.2 h2]
    unfold Addr.set
    rw [if_pos (by simp [Addr.size, h1]), Res.bind_ok, readPeers_compact junk ps t fun q hq => h q (List.mem_cons_of_mem _ hq)]
    simp only [Res.bind_ok, Res.pure_eq, List.map_cons, Addr.size]
    rw [show (if false = true then 16 else 4) = 4 from rfl, ← h1, List.take_length]

theorem toU32_toInt32 (n : Nat) (h : n < 2147483648) : toU32 (toInt32 n) = n := by
  rw [toInt32_id (by omega) (by omega)]
  unfold toU32
  omega

theorem getIntKey_number {mem : List UInt8} {objs : List Obj} {pos : Nat} {kvs : List (List UInt8 × BVal)} (h : AtPos mem objs 0 (.dict kvs) pos) (name : String)
    (hn : number kvs name < 2147483648) : ∃ v, getIntKey mem objs 0 (ascii name) = .ok v ∧ toU32 v = number kvs name := by
  have := getIntKey_dict h (ascii name) (by
    intro n hl
    unfold number at hn
    rw [hl] at hn
    simp only at hn
    omega)
  refine ⟨_, this, ?_⟩
  unfold number at hn ⊢
  cases hl : lookup kvs (ascii name) .number with
  | none => rfl
  | some v =>
    rw [hl] at hn
    cases v with
    | int n => exact toU32_toInt32 n hn
    | str _ => rfl
    | list _ => rfl
    | dict _ => rfl

theorem compact_length : ∀ (ps : List (List UInt8 × Nat)), (∀ p ∈ ps, p.1.length = 4 ∧ p.2 < 65536) → (ps.flatMap compactPeer).length = 6 * ps.length
  | [], _ => rfl
  | p :: ps, hps => by
    have := compact_length ps fun q hq => hps q (List.mem_cons_of_mem _ hq)
    rw [List.flatMap_cons, List.length_append, this, compactPeer, List.length_append, (hps p List.mem_cons_self).1, be16_length]
    simp only [List.length_cons]; omega

/-- The dictionary of an announce reply. -/
theorem readAnnounceDict_dict (junk : Addr) {mem : List UInt8} {objs : List Obj} {pos : Nat} {kvs : List (List UInt8 × BVal)} (h : AtPos mem objs 0 (.dict kvs) pos)
    (hn : ∀ name ∈ ["min interval", "interval", "complete", "incomplete"], number kvs name < 2147483648) (ps : List (List UInt8 × Nat)) (hps : ∀ p ∈ ps, p.1.length = 4 ∧ p.2 < 65536)
    (hp : textOf kvs "peers" = some (ps.flatMap compactPeer) ∨ (textOf kvs "peers" = none ∧ ps = [])) :
    readAnnounceDict junk mem objs = .ok
      { interval := interval kvs, seed := number kvs "complete", leech := number kvs "incomplete"
        peers := ps.map fun p => ⟨p.1 ++ junk.bytes.drop 4, p.2, false⟩ } := by
  obtain ⟨v1, h1, e1⟩ := getIntKey_number h "min interval" (hn _ (by simp))
  obtain ⟨v2, h2, e2⟩ := getIntKey_number h "interval" (hn _ (by simp))
  obtain ⟨v3, h3, e3⟩ := getIntKey_number h "complete" (hn _ (by simp))
  obtain ⟨v4, h4, e4⟩ := getIntKey_number h "incomplete" (hn _ (by simp))
  have hf := findKey_lookup h (ascii "peers") .text
  have hpeers : readPeersKey junk mem objs = .ok (ps.map fun p => ⟨p.1 ++ junk.bytes.drop 4, p.2, false⟩) := by
    unfold readPeersKey
    unfold textOf at hp
    cases hl : lookup kvs (ascii "peers") .text with
    | none =>
      rw [hl] at hf hp
      have hps0 : ps = [] := by rcases hp with hp | hp; cases hp; exact hp.2
      subst hps0
      rw [hf]; rfl
    | some v =>
      rw [hl] at hf hp
      obtain ⟨h1, j, pos', h2, h3⟩ := hf
      cases v with
      | str s =>
        have hs : s = ps.flatMap compactPeer := by rcases hp with hp | hp; exact Option.some.inj hp; exact absurd hp.1 (by simp)
        subst hs
        rw [h2, Res.bind_ok]
        obtain ⟨o, g1, _, _, g4, g5⟩ := h3.str
        have hlen := compact_length ps hps
        simp only [g1, Res.bind_ok]
        rw [g4, hlen, if_pos (by rw [Int.tmod_eq_emod_of_nonneg (by omega)]; omega)]
        have hdiv : (((6 * ps.length : Nat) : Int) / 6).toNat = ps.length := by omega
        rw [hdiv, ← List.take_append_drop (ps.flatMap compactPeer).length (mem.drop o.data), g5]
        exact readPeers_compact junk ps _ hps
      | int _ => cases h1
      | list _ => cases h1
      | dict _ => cases h1
  unfold readAnnounceDict
  rw [h1, Res.bind_ok]
  simp only [e1]
  unfold interval
  by_cases hm : number kvs "min interval" = 0
  · simp only [hm, if_true, ne_eq, not_true_eq_false, if_false]
    rw [h2, Res.bind_ok, Res.pure_eq, Res.bind_ok]
    simp only [e2]
    rw [h3, Res.bind_ok, h4, Res.bind_ok, hpeers, Res.bind_ok]
    simp only [Res.pure_eq, e3, e4]
    by_cases hi : number kvs "interval" = 0 <;> simp [hi]
  · simp only [hm, if_false, ne_eq, not_false_eq_true, if_true]
    rw [Res.pure_eq, Res.bind_ok]
    simp only [hm, if_false]
    rw [h3, Res.bind_ok, h4, Res.bind_ok, hpeers, Res.bind_ok]
    simp only [Res.pure_eq, e3, e4]

end Verif.Http
