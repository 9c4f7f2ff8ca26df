import Verif.Proof.DhtResponder

namespace Verif.Dht
open Verif Net Bencode Spec

theorem nodup_length_le {α} [DecidableEq α] : ∀ (l u : List α), l.Nodup → (∀ x ∈ l, x ∈ u) → l.length ≤ u.length
  | [], u, _, _ => by simp
  | a :: l, u, hn, hs => by
    have hn' := List.nodup_cons.mp hn
    have ha : a ∈ u := hs a List.mem_cons_self
    have ih := nodup_length_le l (u.erase a) hn'.2 (by
      intro x hx
      have : x ≠ a := fun e => hn'.1 (e ▸ hx)
      exact (List.mem_erase_of_ne this).mpr (hs x (List.mem_cons_of_mem _ hx)))
    rw [List.length_erase_of_mem ha] at ih
    have := List.length_pos_of_mem ha
    simp only [List.length_cons]; omega

/-- The peers stored for an info hash. -/
abbrev stored (r : Responder) (ih : Id) : List Stored := (peersOf r ih).getD []

/-- No info hash occurs twice. -/
def UniqueKeys (r : Responder) : Prop := (r.values.map (·.1)).Nodup

theorem find_modify (id ih : Id) (f : List Stored → List Stored) : ∀ l : List (Id × List Stored),
    (((modifyPeers id f l).find? (·.1 == ih)).map (·.2)).getD [] =
      if id = ih then f (((l.find? (·.1 == ih)).map (·.2)).getD []) else ((l.find? (·.1 == ih)).map (·.2)).getD []
  | [] => by
    unfold modifyPeers
    by_cases h : id = ih <;> simp [h]
  | kv :: l => by
    unfold modifyPeers
    by_cases hk : kv.1 = id
    · rw [if_pos hk]
      by_cases h : id = ih
      · subst h; simp [hk]
      · have : kv.1 ≠ ih := by rw [hk]; exact h
        simp [h, this]
    · rw [if_neg hk]
      by_cases hi : kv.1 = ih
      · have : id ≠ ih := fun e => hk (hi.trans e.symm)
        simp [hi, this]
      · have := find_modify id ih f l
        simp [hi, this]

theorem stored_announce (r : Responder) (ih' ih : Id) (a : Addr) (now : Nat) :
    stored (r.announcedPeer ih' a now) ih = if ih' = ih then storePeer ⟨a, now⟩ (stored r ih) else stored r ih :=
  find_modify ih' ih _ r.values

theorem modify_keys (id : Id) (f : List Stored → List Stored) : ∀ l : List (Id × List Stored), (l.map (·.1)).Nodup →
    ((modifyPeers id f l).map (·.1)).Nodup ∧ ∀ x ∈ (modifyPeers id f l).map (·.1), x = id ∨ x ∈ l.map (·.1)
  | [], _ => by simp [modifyPeers]
  | kv :: l, h => by
    obtain ⟨h1, h2⟩ := List.nodup_cons.mp h
    obtain ⟨i1, i2⟩ := modify_keys id f l h2
    unfold modifyPeers
    split
    · rename_i hk
      subst hk
      exact ⟨by simpa using h, by simp⟩
    · rename_i hk
      refine ⟨?_, ?_⟩
      · rw [List.map_cons, List.nodup_cons]
        refine ⟨fun hm => ?_, i1⟩
        rcases i2 _ hm with h3 | h3
        · exact hk h3
        · exact h1 h3
      · intro x hx
        rw [List.map_cons] at hx ⊢
        rcases List.mem_cons.mp hx with h3 | h3
        · exact .inr (h3 ▸ List.mem_cons_self)
        · rcases i2 x h3 with h4 | h4
          · exact .inl h4
          · exact .inr (List.mem_cons_of_mem _ h4)

theorem keys_announce {r : Responder} (h : UniqueKeys r) (ih : Id) (a : Addr) (now : Nat) : UniqueKeys (r.announcedPeer ih a now) :=
  (modify_keys ih _ r.values h).1

theorem find_refresh (p : Stored → Bool) (ih : Id) : ∀ l : List (Id × List Stored), (l.map (·.1)).Nodup →
    ((((l.map fun kv => (kv.1, kv.2.filter p)).filter fun kv => !kv.2.isEmpty).find? (·.1 == ih)).map (·.2)).getD [] =
      (((l.find? (·.1 == ih)).map (·.2)).getD []).filter p
  | [], _ => by simp
  | kv :: l, h => by
    obtain ⟨h1, h2⟩ := List.nodup_cons.mp h
    have i := find_refresh p ih l h2
    by_cases hi : kv.1 = ih
    · by_cases he : (kv.2.filter p) = []
      · have hnone : l.find? (·.1 == ih) = none := by
          rw [List.find?_eq_none]
          intro x hx
          have : x.1 ≠ ih := fun e => h1 (List.mem_map.mpr ⟨x, hx, e.trans hi.symm⟩)
          simpa using this
        rw [hnone] at i
        simp only [List.map_cons, List.filter_cons, he, List.isEmpty_nil, Bool.not_true, Bool.false_eq_true, if_false, List.find?_cons,
          hi, beq_self_eq_true, Option.map_some, Option.getD_some]
        rw [i]; simp
      · have : (kv.2.filter p).isEmpty = false := by simpa using he
        simp only [List.map_cons, List.filter_cons, this, Bool.not_false, if_true, List.find?_cons, hi, beq_self_eq_true,
          Option.map_some, Option.getD_some]
    · have hb : (kv.1 == ih) = false := by simpa using hi
      by_cases he : (kv.2.filter p).isEmpty
      · simp only [List.map_cons, List.filter_cons, he, Bool.not_true, Bool.false_eq_true, if_false, List.find?_cons, hb]
        exact i
      · simp only [List.map_cons, List.filter_cons, he, Bool.not_false, if_true, List.find?_cons, hb]
        exact i

theorem stored_refresh {r : Responder} (h : UniqueKeys r) (now s : Nat) (ih : Id) :
    stored (r.refresh now s) ih = (stored r ih).filter fun s => ¬ s.timestamp < oldestTime now :=
  find_refresh _ ih r.values h

theorem keys_refresh {r : Responder} (h : UniqueKeys r) (now s : Nat) : UniqueKeys (r.refresh now s) := by
  unfold UniqueKeys Responder.refresh Responder.refreshStoredValues
  simp only
  refine List.Nodup.sublist (List.filter_sublist.map _) ?_
  rw [List.map_map]
  exact h

theorem oldest_eq (now t : Nat) (h : 1800 ≤ now) (h2 : now < 18446744073709551616) : ¬ t < oldestTime now ↔ now ≤ t + 1800 := by
  unfold oldestTime; omega

/-! ### storePeer -/

theorem set_split {α} : ∀ (l : List α) (i : Nat) (v : α) (h : i < l.length), ∃ a b, l = a ++ l[i] :: b ∧ l.set i v = a ++ v :: b ∧ a.length = i
  | x :: l, 0, v, _ => ⟨[], l, by simp⟩
  | x :: l, i + 1, v, h => by
    obtain ⟨a, b, h1, h2, h3⟩ := set_split l i v (by simpa using h)
    refine ⟨x :: a, b, ?_, ?_, by simp [h3]⟩
    · simp only [List.getElem_cons_succ, List.cons_append]; exact congrArg _ h1
    · simp [h2]

theorem storePeer_cases (v : Stored) (l : List Stored) :
    (∃ a s b, l = a ++ s :: b ∧ s.addr.eq v.addr = true ∧ (∀ x ∈ a, x.addr.eq v.addr = false) ∧ storePeer v l = a ++ v :: b) ∨
    ((∀ x ∈ l, x.addr.eq v.addr = false) ∧ storePeer v l = if l.length < 32 then l ++ [v] else l) := by
  unfold storePeer
  cases h : l.findIdx? (fun s => s.addr.eq v.addr) with
  | none =>
    right
    rw [List.findIdx?_eq_none_iff] at h
    exact ⟨h, rfl⟩
  | some i =>
    left
    rw [List.findIdx?_eq_some_iff_getElem] at h
    obtain ⟨hi, h1, h2⟩ := h
    obtain ⟨a, b, h3, h4, h5⟩ := set_split l i v hi
    refine ⟨a, l[i], b, h3, h1, ?_, h4⟩
    intro x hx
    obtain ⟨j, hj, rfl⟩ := List.mem_iff_getElem.mp hx
    have := h2 j (by omega)
    have hlj : l[j]'(by omega) = a[j] := by
      have h6 : l[j]? = (a ++ l[i] :: b)[j]? := congrArg (·[j]?) h3
      rw [List.getElem?_append_left hj, List.getElem?_eq_getElem hj, List.getElem?_eq_getElem (by omega)] at h6
      exact Option.some.inj h6
    rw [hlj] at this
    simpa using this

theorem storePeer_length (v : Stored) (l : List Stored) : l.length ≤ (storePeer v l).length ∧ (l.length ≤ 32 → (storePeer v l).length ≤ 32) := by
  rcases storePeer_cases v l with ⟨a, s, b, h1, _, _, h2⟩ | ⟨_, h2⟩
  · rw [h2, h1]; simp
  · rw [h2]; split <;> simp <;> omega

theorem storePeer_mem (v : Stored) (l : List Stored) (x : Stored) (h : x ∈ storePeer v l) : x = v ∨ x ∈ l := by
  rcases storePeer_cases v l with ⟨a, s, b, h1, _, _, h2⟩ | ⟨_, h2⟩
  · rw [h2] at h; rw [h1]; simp at h ⊢; rcases h with h | h | h <;> simp [h]
  · rw [h2] at h; split at h
    · simp at h; rcases h with h | h <;> simp [h]
    · exact .inr h

theorem eq_endpoint {a b : Addr} (h : a.ipv6 = b.ipv6) : a.eq b = true ↔ endpointOf a = endpointOf b := by
  unfold Addr.eq endpointOf
  simp only [Bool.and_eq_true, beq_iff_eq, Prod.mk.injEq, h, true_and]
  exact And.comm

/-- A family clash: the two addresses are taken for one although their families differ. -/
def NoClash (A : List Addr) : Prop := ∀ a ∈ A, ∀ b ∈ A, a.eq b = true → a.ipv6 = b.ipv6

theorem eq_iff_endpoint {A : List Addr} (hA : NoClash A) {a b : Addr} (ha : a ∈ A) (hb : b ∈ A) :
    a.eq b = true ↔ endpointOf a = endpointOf b := by
  constructor
  · intro h; exact (eq_endpoint (hA a ha b hb h)).mp h
  · intro h; exact (eq_endpoint (congrArg (·.1) h)).mpr h

/-- The stored list as a map from addresses to times. -/
structure Holds (A : List Addr) (l : List Stored) (f : Bool × List UInt8 × Nat → Option Nat) : Prop where
  nodup : (l.map fun s => endpointOf s.addr).Nodup
  sub : ∀ s ∈ l, s.addr ∈ A
  map : ∀ x t, (∃ s ∈ l, endpointOf s.addr = x ∧ s.timestamp = t) ↔ f x = some t

theorem holds_store {A : List Addr} (hA : NoClash A) {U : List (Bool × List UInt8 × Nat)} (hU : U.length ≤ 32)
    (hAU : ∀ a ∈ A, endpointOf a ∈ U) {l : List Stored} {f} (h : Holds A l f) (a : Addr) (ha : a ∈ A) (now : Nat) :
    Holds A (storePeer ⟨a, now⟩ l) (fun x => if endpointOf a = x then some now else f x) := by
  rcases storePeer_cases ⟨a, now⟩ l with ⟨p, s, q, h1, h2, h3, h4⟩ | ⟨h3, h4⟩
  · subst h1
    have hs : endpointOf s.addr = endpointOf a := (eq_iff_endpoint hA (h.sub s (by simp)) ha).mp h2
    have hn := h.nodup
    rw [h4]
    refine ⟨?_, ?_, ?_⟩
    · simp only [List.map_append, List.map_cons, hs] at hn ⊢; exact hn
    · intro x hx
      simp only [List.mem_append, List.mem_cons] at hx
      rcases hx with hx | rfl | hx
      · exact h.sub x (by simp [hx])
      · exact ha
      · exact h.sub x (by simp [hx])
    · intro x t
      by_cases hx : endpointOf a = x
      · rw [if_pos hx]
        constructor
        · rintro ⟨z, hz, hz1, hz2⟩
          simp only [List.mem_append, List.mem_cons] at hz
          simp only [List.map_append, List.map_cons, List.nodup_append, List.nodup_cons, hs, List.mem_map, List.mem_cons] at hn
          rcases hz with hz | rfl | hz
          · exact absurd (hz1.trans hx.symm) (fun e => hn.2.2 _ ⟨z, hz, rfl⟩ _ (.inl rfl) e)
          · rw [← hz2]
          · exact absurd ⟨z, hz, hz1.trans hx.symm⟩ hn.2.1.1
        · intro e
          cases e
          exact ⟨⟨a, now⟩, by simp, hx, rfl⟩
      · rw [if_neg hx, ← h.map x t]
        constructor
        · rintro ⟨z, hz, hz1, hz2⟩
          simp only [List.mem_append, List.mem_cons] at hz
          rcases hz with hz | rfl | hz
          · exact ⟨z, by simp [hz], hz1, hz2⟩
          · exact absurd hz1 hx
          · exact ⟨z, by simp [hz], hz1, hz2⟩
        · rintro ⟨z, hz, hz1, hz2⟩
          simp only [List.mem_append, List.mem_cons] at hz
          rcases hz with hz | rfl | hz
          · exact ⟨z, by simp [hz], hz1, hz2⟩
          · exact absurd (hs.symm.trans hz1) hx
          · exact ⟨z, by simp [hz], hz1, hz2⟩
  · have hnew : endpointOf a ∉ l.map fun s => endpointOf s.addr := by
      intro hm
      obtain ⟨s, hs, he⟩ := List.mem_map.mp hm
      have := (eq_iff_endpoint hA (h.sub s hs) ha).mpr he
      rw [h3 s hs] at this; cases this
    have hlen : l.length < 32 := by
      have := nodup_length_le (endpointOf a :: l.map fun s => endpointOf s.addr) U (List.nodup_cons.mpr ⟨hnew, h.nodup⟩) (by
        intro x hx
        rcases List.mem_cons.mp hx with rfl | hx
        · exact hAU a ha
        · obtain ⟨s, hs, rfl⟩ := List.mem_map.mp hx
          exact hAU _ (h.sub s hs))
      simp at this; omega
    rw [h4, if_pos hlen]
    refine ⟨?_, ?_, ?_⟩
    · rw [List.map_append, List.nodup_append]
      refine ⟨h.nodup, by simp, ?_⟩
      intro x hx y hy e
      simp at hy
      subst hy; subst e
      exact hnew hx
    · intro x hx
      rcases List.mem_append.mp hx with hx | hx
      · exact h.sub x hx
      · simp at hx; rw [hx]; exact ha
    · intro x t
      by_cases hx : endpointOf a = x
      · rw [if_pos hx]
        constructor
        · rintro ⟨z, hz, hz1, hz2⟩
          rcases List.mem_append.mp hz with hz | hz
          · exact absurd (List.mem_map.mpr ⟨z, hz, hz1.trans hx.symm⟩) hnew
          · simp at hz; rw [hz] at hz2; rw [← hz2]
        · intro e
          cases e
          exact ⟨⟨a, now⟩, by simp, hx, rfl⟩
      · rw [if_neg hx, ← h.map x t]
        constructor
        · rintro ⟨z, hz, hz1, hz2⟩
          rcases List.mem_append.mp hz with hz | hz
          · exact ⟨z, hz, hz1, hz2⟩
          · simp at hz; rw [hz] at hz1; exact absurd hz1 hx
        · rintro ⟨z, hz, hz1, hz2⟩
          exact ⟨z, by simp [hz], hz1, hz2⟩

theorem holds_filter {A : List Addr} {l : List Stored} {f} (h : Holds A l f) (now : Nat) (h1 : 1800 ≤ now) (h2 : now < 18446744073709551616) :
    Holds A (l.filter fun s => ¬ s.timestamp < oldestTime now) (fun x => (f x).filter fun t => decide (now ≤ t + 1800)) := by
  refine ⟨h.nodup.sublist (List.filter_sublist.map _), fun s hs => h.sub s (List.mem_filter.mp hs).1, ?_⟩
  intro x t
  rw [Option.filter_eq_some_iff, ← h.map x t]
  constructor
  · rintro ⟨s, hs, e1, e2⟩
    obtain ⟨hs, hp⟩ := List.mem_filter.mp hs
    simp only [decide_eq_true_eq] at hp
    exact ⟨⟨s, hs, e1, e2⟩, by rw [decide_eq_true_eq, ← oldest_eq now t h1 h2, ← e2]; exact hp⟩
  · rintro ⟨⟨s, hs, e1, e2⟩, hp⟩
    rw [decide_eq_true_eq, ← oldest_eq now t h1 h2, ← e2] at hp
    exact ⟨s, List.mem_filter.mpr ⟨hs, by simpa using hp⟩, e1, e2⟩

theorem holds_run {A : List Addr} (hA : NoClash A) {U : List (Bool × List UInt8 × Nat)} (hU : U.length ≤ 32)
    (hAU : ∀ a ∈ A, endpointOf a ∈ U) (ih : Id) : ∀ (ops : List ROp) (r : Responder) (f : Bool × List UInt8 × Nat → Option Nat),
    UniqueKeys r → (∀ a ∈ announcedFor ih ops, a ∈ A) → (∀ now s, ROp.refresh now s ∈ ops → 1800 ≤ now ∧ now < 18446744073709551616) →
    Holds A (stored r ih) f → Holds A (stored (runPeers r ops) ih) (fun x => lastAnnounced ih x ops (f x))
  | [], r, f, _, _, _, h => h
  | .announce ih' a now :: ops, r, f, hk, ha, ht, h => by
    have hs := stored_announce r ih' ih a now
    have hin : ih' = ih → a ∈ A := by
      intro e; apply ha; simp [announcedFor, e]
    have ha' : ∀ a ∈ announcedFor ih ops, a ∈ A := by
      intro x hx; apply ha; unfold announcedFor; split <;> simp [hx]
    have hstep : Holds A (stored (r.announcedPeer ih' a now) ih) (fun x => if ih' = ih ∧ endpointOf a = x then some now else f x) := by
      rw [hs]
      by_cases e : ih' = ih
      · simp only [e, true_and, if_true]
        exact holds_store hA hU hAU h a (hin e) now
      · simp only [e, false_and, if_false]; exact h
    exact holds_run hA hU hAU ih ops _ _ (keys_announce hk ih' a now) ha' (fun n s hm => ht n s (List.mem_cons_of_mem _ hm)) hstep
  | .refresh now s :: ops, r, f, hk, ha, ht, h => by
    have h12 := ht now s List.mem_cons_self
    have hstep := holds_filter h now h12.1 h12.2
    rw [← stored_refresh hk now s ih] at hstep
    exact holds_run hA hU hAU ih ops _ _ (keys_refresh hk now s) ha (fun n s hm => ht n s (List.mem_cons_of_mem _ hm)) hstep

/-! ### Any history -/

theorem stored_sound (ih : Id) : ∀ (ops : List ROp) (r : Responder), UniqueKeys r → (stored r ih).length ≤ 32 →
    (stored (runPeers r ops) ih).length ≤ 32 ∧
    ∀ s ∈ stored (runPeers r ops) ih, s ∈ stored r ih ∨ ROp.announce ih s.addr s.timestamp ∈ ops
  | [], r, _, hl => ⟨hl, fun s hs => .inl hs⟩
  | .announce ih' a now :: ops, r, hk, hl => by
    have hst := stored_announce r ih' ih a now
    have hl' : (stored (r.announcedPeer ih' a now) ih).length ≤ 32 := by
      rw [hst]; split
      · exact (storePeer_length _ _).2 hl
      · exact hl
    obtain ⟨h1, h2⟩ := stored_sound ih ops _ (keys_announce hk ih' a now) hl'
    refine ⟨h1, fun s hs => ?_⟩
    rcases h2 s hs with h3 | h3
    · rw [hst] at h3
      split at h3
      · rename_i e
        rcases storePeer_mem _ _ _ h3 with h4 | h4
        · subst h4; subst e; exact .inr List.mem_cons_self
        · exact .inl h4
      · exact .inl h3
    · exact .inr (List.mem_cons_of_mem _ h3)
  | .refresh now sec :: ops, r, hk, hl => by
    have hst := stored_refresh hk now sec ih
    obtain ⟨h1, h2⟩ := stored_sound ih ops _ (keys_refresh hk now sec) (by
      rw [hst]; exact Nat.le_trans (List.length_filter_le _ _) hl)
    refine ⟨h1, fun s hs => ?_⟩
    rcases h2 s hs with h3 | h3
    · rw [hst] at h3; exact .inl (List.mem_filter.mp h3).1
    · exact .inr (List.mem_cons_of_mem _ h3)

theorem last_recent (ih : Id) (x : Bool × List UInt8 × Nat) (now : Nat) : ∀ (ops : List ROp) (t : Option Nat),
    (ops.map ROp.time).Pairwise (· ≤ ·) → (∀ op ∈ ops, op.time ≤ now) → (∀ t0, t = some t0 → ∀ op ∈ ops, t0 ≤ op.time) →
    (((lastAnnounced ih x ops t).filter fun t => decide (now ≤ t + 1800)).isSome = true ↔
      ((t.filter fun t => decide (now ≤ t + 1800)).isSome = true ∨ ∃ a T, ROp.announce ih a T ∈ ops ∧ endpointOf a = x ∧ now ≤ T + 1800))
  | [], t, _, _, _ => by simp [lastAnnounced]
  | .announce ih' a T :: ops, t, hp, hn, ht => by
    obtain ⟨hp1, hp2⟩ := List.pairwise_cons.mp hp
    have hle : ∀ op ∈ ops, T ≤ op.time := fun op ho => hp1 _ (List.mem_map_of_mem ho)
    unfold lastAnnounced
    rw [last_recent ih x now ops _ hp2 (fun op ho => hn op (List.mem_cons_of_mem _ ho)) (by
      intro t0 h0 op ho
      split at h0
      · cases h0; exact hle op ho
      · exact ht t0 h0 op (List.mem_cons_of_mem _ ho))]
    by_cases hx : ih' = ih ∧ endpointOf a = x
    · rw [if_pos hx]
      constructor
      · rintro (h | ⟨a', T', h1, h2, h3⟩)
        · refine .inr ⟨a, T, by rw [hx.1]; exact List.mem_cons_self, hx.2, ?_⟩
          by_cases hh : now ≤ T + 1800
          · exact hh
          · simp [hh] at h
        · exact .inr ⟨a', T', List.mem_cons_of_mem _ h1, h2, h3⟩
      · rintro (h | ⟨a', T', h1, h2, h3⟩)
        · cases t with
          | none => simp at h
          | some t0 =>
            have h0 : t0 ≤ T := ht t0 rfl (.announce ih' a T) List.mem_cons_self
            by_cases hh : now ≤ t0 + 1800
            · left; simp only [Option.filter]; rw [if_pos (by simp; omega)]; rfl
            · simp [hh] at h
        · rcases List.mem_cons.mp h1 with h1 | h1
          · cases h1; left; simp [h3]
          · exact .inr ⟨a', T', h1, h2, h3⟩
    · rw [if_neg hx]
      constructor
      · rintro (h | ⟨a', T', h1, h2, h3⟩)
        · exact .inl h
        · exact .inr ⟨a', T', List.mem_cons_of_mem _ h1, h2, h3⟩
      · rintro (h | ⟨a', T', h1, h2, h3⟩)
        · exact .inl h
        · rcases List.mem_cons.mp h1 with h1 | h1
          · cases h1; exact absurd ⟨rfl, h2⟩ hx
          · exact .inr ⟨a', T', h1, h2, h3⟩
  | .refresh n s :: ops, t, hp, hn, ht => by
    obtain ⟨hp1, hp2⟩ := List.pairwise_cons.mp hp
    unfold lastAnnounced
    rw [last_recent ih x now ops _ hp2 (fun op ho => hn op (List.mem_cons_of_mem _ ho)) (by
      intro t0 h0 op ho
      exact ht t0 (Option.filter_eq_some_iff.mp h0).1 op (List.mem_cons_of_mem _ ho))]
    have hnn : n ≤ now := hn (.refresh n s) List.mem_cons_self
    have e1 : (Option.filter (fun t => decide (now ≤ t + 1800)) (Option.filter (fun t => decide (n ≤ t + 1800)) t)) =
        Option.filter (fun t => decide (now ≤ t + 1800)) t := by
      cases t with
      | none => rfl
      | some t0 =>
        simp only [Option.filter]
        by_cases h1 : now ≤ t0 + 1800
        · have h2 : n ≤ t0 + 1800 := by omega
          simp [h1, h2]
        · by_cases h2 : n ≤ t0 + 1800 <;> simp [h1, h2]
    rw [e1]
    constructor
    · rintro (h | ⟨a', T', h1, h2, h3⟩)
      · exact .inl h
      · exact .inr ⟨a', T', List.mem_cons_of_mem _ h1, h2, h3⟩
    · rintro (h | ⟨a', T', h1, h2, h3⟩)
      · exact .inl h
      · rcases List.mem_cons.mp h1 with h1 | h1
        · cases h1
        · exact .inr ⟨a', T', h1, h2, h3⟩

/-! ### Tokens -/

theorem token_sum (text : List UInt8) (s : Nat) (hs : s < 4294967296) :
    announceToken text s = (s + (text.map UInt8.toNat).sum) % 4294967296 := by
  unfold announceToken
  induction text generalizing s with
  | nil => simp; omega
  | cons c t ih =>
    simp only [List.foldl_cons, List.map_cons, List.sum_cons]
    rw [ih _ (Nat.mod_lt _ (by decide))]
    omega

theorem drawn_append (ops : List ROp) (l m : List Nat) : drawn ops (l ++ m) = drawn ops l ++ m := by
  induction ops generalizing l with
  | nil => rfl
  | cons op ops ih =>
    cases op with
    | announce => exact ih l
    | refresh now s => exact ih (s :: l)

theorem drawn_lt (ops : List ROp) (l : List Nat) (hl : ∀ x ∈ l, x < 4294967296) (hops : ∀ now x, ROp.refresh now x ∈ ops → x < 4294967296) :
    ∀ x ∈ drawn ops l, x < 4294967296 := by
  induction ops generalizing l with
  | nil => exact hl
  | cons op ops ih =>
    have hops' : ∀ now x, ROp.refresh now x ∈ ops → x < 4294967296 := fun n x hm => hops n x (List.mem_cons_of_mem _ hm)
    cases op with
    | announce => exact ih l hl hops'
    | refresh now s =>
      refine ih (s :: l) ?_ hops'
      intro x hx
      rcases List.mem_cons.mp hx with rfl | hx
      · exact hops now x List.mem_cons_self
      · exact hl x hx

theorem secrets_run (ops : List ROp) (r : Responder) (l : List Nat) (h0 : r.secret0 < 4294967296) (h1 : r.secret1 < 4294967296)
    (hops : ∀ now x, ROp.refresh now x ∈ ops → x < 4294967296) :
    ((runPeers r ops).secret0 < 4294967296 ∧ (runPeers r ops).secret1 < 4294967296) ∧
    (drawn ops (r.secret0 :: r.secret1 :: l)).take 2 = [(runPeers r ops).secret0, (runPeers r ops).secret1] := by
  induction ops generalizing r l with
  | nil => exact ⟨⟨h0, h1⟩, rfl⟩
  | cons op ops ih =>
    have hops' : ∀ now x, ROp.refresh now x ∈ ops → x < 4294967296 := fun n x hm => hops n x (List.mem_cons_of_mem _ hm)
    cases op with
    | announce i a n => exact ih (r.announcedPeer i a n) l h0 h1 hops'
    | refresh now s => exact ih (r.refresh now s) (r.secret1 :: l) (hops now s List.mem_cons_self) h0 hops'

theorem valid_iff {l : List Nat} (r : Responder) (h0 : r.secret0 < 4294967296) (h1 : r.secret1 < 4294967296)
    (hl : l.take 2 = [r.secret0, r.secret1]) (e : Endpoint) (token : Nat) :
    r.isValidToken token e = true ↔ ∃ x ∈ l.take 2, token = (x + (e.text.map UInt8.toNat).sum) % 4294967296 := by
  unfold Responder.isValidToken
  rw [token_sum _ _ h0, token_sum _ _ h1, hl]
  simp only [Bool.or_eq_true, beq_iff_eq, List.mem_cons, List.not_mem_nil, or_false, exists_eq_or_imp, exists_eq_left]
  constructor
  · rintro (h | h)
    · exact .inl h.symm
    · exact .inr h.symm
  · rintro (h | h)
    · exact .inl h.symm
    · exact .inr h.symm

/-! ### Histories of the whole node -/

theorem modify_mem (id : Id) (f : List Stored → List Stored) (P : Stored → Prop) : ∀ l : List (Id × List Stored),
    (∀ kv ∈ l, ∀ s ∈ kv.2, P s) → (∀ m : List Stored, (∀ s ∈ m, P s) → ∀ s ∈ f m, P s) → ∀ kv ∈ modifyPeers id f l, ∀ s ∈ kv.2, P s
  | [], _, hf => by
    intro kv hkv
    simp only [modifyPeers, List.mem_singleton] at hkv
    subst hkv
    exact hf [] (by simp)
  | x :: l, h, hf => by
    intro kv hkv
    unfold modifyPeers at hkv
    split at hkv
    · rcases List.mem_cons.mp hkv with rfl | hkv
      · exact hf _ (h x List.mem_cons_self)
      · exact h kv (List.mem_cons_of_mem _ hkv)
    · rcases List.mem_cons.mp hkv with rfl | hkv
      · exact h _ List.mem_cons_self
      · exact modify_mem id f P l (fun y hy => h y (List.mem_cons_of_mem _ hy)) hf kv hkv

theorem wf_announce {r : Responder} (h : WellFormed r) (ih : Id) (a : Addr) (ha : a.bytes.length = 16) (now : Nat) :
    WellFormed (r.announcedPeer ih a now) :=
  modify_mem ih _ (fun s => s.addr.bytes.length = 16) r.values h (by
    intro m hm s hs
    rcases storePeer_mem _ _ _ hs with rfl | hs
    · exact ha
    · exact hm s hs)

theorem packet_effect {r : Responder} (hr : WellFormed r) {me : Id} (hme : me.length = 20) {now : Nat} {e : Endpoint}
    (he : e.addr.bytes.length = 16) {fuel : Nat} {data after : List UInt8} {x : Option (List UInt8)} {r' : Responder}
    (h : r.handlePacket me now e fuel data after = .ok (x, r')) :
    WellFormed r' ∧ r'.secret0 = r.secret0 ∧ r'.secret1 = r.secret1 ∧ ∀ ih, (stored r ih).length ≤ (stored r' ih).length := by
  rcases handlePacket_any hr hme h with ⟨_, rfl⟩ | ⟨t, rest, id, r1, h1, h2, h3, h4, h5⟩
  · exact ⟨hr, rfl, rfl, fun _ => Nat.le_refl _⟩
  · subst h5
    rcases h4 with rfl | ⟨info, tok, port, h6, h7, h8, rfl⟩
    · exact ⟨hr, rfl, rfl, fun _ => Nat.le_refl _⟩
    · refine ⟨wf_announce hr info { e.addr with port := port } he now, rfl, rfl, fun ih => ?_⟩
      have := stored_announce r info ih { e.addr with port := port } now
      show _ ≤ (stored (r.announcedPeer info { e.addr with port := port } now) ih).length
      rw [this]
      split
      · exact (storePeer_length _ _).1
      · exact Nat.le_refl _

theorem run_disarmed (me : Id) (hme : me.length = 20) : ∀ (es : List (Nat × DEv)) (d d' : DNode), d.armed = false → WellFormed d.responder →
    (∀ t s, (t, DEv.start s) ∉ es) → (∀ t e f a b, (t, DEv.packet e f a b) ∈ es → e.addr.bytes.length = 16) → d.run me es = .ok d' →
    d'.responder.secret0 = d.responder.secret0 ∧ d'.responder.secret1 = d.responder.secret1 ∧
    (∀ ih, (stored d.responder ih).length ≤ (stored d'.responder ih).length) ∧ d'.armed = false
  | [], d, d', hd, _, _, _, h => by cases h; exact ⟨rfl, rfl, fun _ => Nat.le_refl _, hd⟩
  | (t, ev) :: es, d, d', hd, hw, hs, he, h => by
    unfold DNode.run at h
    obtain ⟨d1, h1, h2⟩ := bind_eq_ok h
    have hs' : ∀ t s, (t, DEv.start s) ∉ es := fun t s hm => hs t s (List.mem_cons_of_mem _ hm)
    have he' : ∀ t e f a b, (t, DEv.packet e f a b) ∈ es → e.addr.bytes.length = 16 :=
      fun t e f a b hm => he t e f a b (List.mem_cons_of_mem _ hm)
    cases ev with
    | packet e f a b =>
      unfold DNode.step at h1
      obtain ⟨⟨x, r'⟩, h3, h4⟩ := bind_eq_ok h1
      cases h4
      obtain ⟨w1, w2, w3, w4⟩ := packet_effect hw hme (he t e f a b List.mem_cons_self) h3
      obtain ⟨i1, i2, i3, i4⟩ := run_disarmed me hme es { d with responder := r' } d' hd w1 hs' he' h2
      exact ⟨i1.trans w2, i2.trans w3, fun ih => Nat.le_trans (w4 ih) (i3 ih), i4⟩
    | start s => exact absurd List.mem_cons_self (hs t s)
    | stop =>
      cases h1
      exact run_disarmed me hme es { d with armed := false } d' rfl hw hs' he' h2
    | timer s =>
      have h3 : d.step me t (.timer s) = .ok d := by simp [DNode.step, hd]
      rw [h3] at h1
      cases h1
      exact run_disarmed me hme es _ d' hd hw hs' he' h2

/-- The timer is not armed after it has fired. -/
theorem fired (me : Id) (d d1 : DNode) (hw : WellFormed d.responder) (now secret : Nat) (h : d.step me now (.timer secret) = .ok d1) :
    d1.armed = false ∧ WellFormed d1.responder ∧ (d.armed = true → d1.responder.secret0 = secret) := by
  unfold DNode.step at h
  cases hd : d.armed with
  | false =>
    simp only [hd, Bool.false_eq_true, if_false, Res.ok.injEq] at h
    subst h
    exact ⟨hd, hw, fun h => by simp at h⟩
  | true =>
    simp only [hd, if_true, Res.ok.injEq] at h
    subst h
    refine ⟨rfl, ?_, fun _ => rfl⟩
    intro kv hk s hs
    simp only [Responder.refresh, Responder.refreshStoredValues, List.mem_filter, List.mem_map] at hk
    obtain ⟨⟨kv0, h0, rfl⟩, _⟩ := hk
    exact hw kv0 h0 s (List.mem_filter.mp hs).1

end Verif.Dht
