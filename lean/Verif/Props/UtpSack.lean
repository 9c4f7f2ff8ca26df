import Verif.Proof.UtpSack
import Verif.Props.UtpStream
import Verif.Spec.UtpSafe
/-! C64: acks of uTP streams. -/
namespace Verif
open Utp Spec

theorem utp_recvLoop_subset : ∀ (l : List Stored) {s : Stream} {r : List Stored × Stream}, recvLoop l s = .ok r → ∀ d ∈ r.1, d ∈ l
  | [], s, r, h, d, hd => by rw [recvLoop] at h; cases h; exact hd
  | x :: xs, s, r, h, d, hd => by
    rw [recvLoop] at h
    split at h
    · obtain ⟨b, _, h⟩ := bind_ok_inv h
      exact List.mem_cons_of_mem _ (utp_recvLoop_subset xs h d hd)
    · cases h; exact hd

theorem utp_refresh_stored {s s' : Stream} (hr : s.refresh = .ok s') : s'.receivedData = s.receivedData := by
  by_cases hs : s.step = .synSend ∨ s.step = .clean
  · unfold Stream.refresh at hr
    split at hr
    · split at hr
      · obtain ⟨t0, h0, hr⟩ := bind_ok_inv hr
        obtain ⟨t, _, hr⟩ := bind_ok_inv hr
        cases h0; cases hr
        rw [close_congr]
      · split at hr
        · split at hr
          · obtain ⟨t0, h0, hr⟩ := bind_ok_inv hr
            obtain ⟨t, _, hr⟩ := bind_ok_inv hr
            cases h0; cases hr; rfl
          · obtain ⟨s1, h1, hr⟩ := bind_ok_inv hr
            obtain ⟨t, _, hr⟩ := bind_ok_inv hr
            cases hr
            exact (resend_frame h1).receivedData
        · split at hr
          · split at hr
            · obtain ⟨t0, h0, hr⟩ := bind_ok_inv hr
              obtain ⟨t, _, hr⟩ := bind_ok_inv hr
              cases h0; cases hr
              rw [close_congr]
            · obtain ⟨t0, h0, hr⟩ := bind_ok_inv hr
              obtain ⟨t, _, hr⟩ := bind_ok_inv hr
              cases h0; cases hr; rfl
          · rename_i h1
            split at hr
            · rename_i h2
              rcases hs with hs | hs <;> rw [h2] at hs <;> cases hs
            · obtain ⟨t0, h0, hr⟩ := bind_ok_inv hr
              obtain ⟨t, _, hr⟩ := bind_ok_inv hr
              cases h0; cases hr; rfl
    · cases hr; rfl
  · exact (refresh_rframe ⟨fun h => hs (Or.inr h), fun h => hs (Or.inl h)⟩ hr).1.receivedData

theorem utp_update_stored {s s' : Stream} {p : Packet} (h : s.updateState p = .ok (some s')) : s'.receivedData = s.receivedData := by
  obtain ⟨_, s1, f1, f2⟩ := updateState_split h
  rw [f2.receivedData, ← f1.receivedData]
  unfold Stream.setConnected
  split <;> rfl

/-- What is stored after an event was stored before or came with it. -/
theorem utp_next_stored {s s' : Stream} {e : Event} (hr : s.next e = .ok s') :
    ∀ d ∈ s'.receivedData, d ∈ s.receivedData ∨ ∃ p, e = .packet p ∧ p.head.typ = 0 ∧ p.data ≠ [] ∧ p.head.seq = d.seq := by
  intro d hd
  cases e with
  | tick t => cases hr; exact Or.inl hd
  | finish used => rw [(readFinish_congr hr).1] at hd; exact Or.inl hd
  | write data grow => rw [(write_frame hr).receivedData] at hd; exact Or.inl hd
  | refresh => rw [utp_refresh_stored hr] at hd; exact Or.inl hd
  | close => cases hr; rw [close_congr] at hd; exact Or.inl hd
  | runClose =>
    cases hr
    unfold Stream.runClose at hd
    split at hd <;> exact Or.inl hd
  | packet p =>
    simp only [Stream.next, Stream.readPacket] at hr
    split at hr
    · rename_i ht
      unfold Stream.handleData at hr
      split at hr
      · cases hr; exact Or.inl hd
      · rename_i hne
        obtain ⟨u, h1, hr⟩ := bind_ok_inv hr
        split at hr
        · cases hr; exact Or.inl hd
        · rename_i s1
          have hu : s1.receivedData = s.receivedData := utp_update_stored (s := { s with bytesSize := s.bytesSize + p.data.length }) h1
          split at hr
          · cases hr; rw [hu] at hd; exact Or.inl hd
          · split at hr
            · obtain ⟨s2, h3, hr⟩ := bind_ok_inv hr
              rw [dataEnd_congr hr] at hd
              unfold Stream.flushReceived at h3
              obtain ⟨r, h4, h3⟩ := bind_ok_inv h3
              cases h3
              have := utp_recvLoop_subset _ h4 d hd
              simp only at this
              rw [hu] at this
              exact Or.inl this
            · split at hr
              · obtain ⟨s2, h3, hr⟩ := bind_ok_inv hr
                rw [dataEnd_congr hr] at hd
                unfold Stream.store at h3
                obtain ⟨b, _, h3⟩ := bind_ok_inv h3
                split at h3
                · rename_i l hl
                  cases h3
                  rcases insertStored_mem hl d hd with rfl | hd
                  · exact Or.inr ⟨p, rfl, ht, hne, rfl⟩
                  · rw [hu] at hd; exact Or.inl hd
                · cases h3; simp only at hd; rw [hu] at hd; exact Or.inl hd
              · cases hr; rw [hu] at hd; exact Or.inl hd
    · unfold Stream.handleFin at hr
      split at hr
      · obtain ⟨s1, h1, hr⟩ := bind_ok_inv hr
        rw [(checkEof_rframe hr).1.receivedData, (clearSend_rframe h1).1.receivedData] at hd
        exact Or.inl hd
      · rw [(checkEof_rframe hr).1.receivedData] at hd
        exact Or.inl hd
    · obtain ⟨u, h1, hr⟩ := bind_ok_inv hr
      split at hr
      · cases hr; exact Or.inl hd
      · cases hr
        rw [utp_update_stored h1] at hd
        exact Or.inl hd
    · obtain ⟨s1, h1, hr⟩ := bind_ok_inv hr
      cases hr
      rw [close_congr] at hd
      simp only at hd
      rw [(clearSend_rframe h1).1.receivedData] at hd
      exact Or.inl hd
    · cases hr; exact Or.inl hd

theorem utp_run_stored : ∀ (es : List Event) {s s' : Stream}, Stream.run es s = .ok s' →
    ∀ d ∈ s'.receivedData, d ∈ s.receivedData ∨ ∃ p, Event.packet p ∈ es ∧ p.head.typ = 0 ∧ p.data ≠ [] ∧ p.head.seq = d.seq
  | [], s, s', h, d, hd => by rw [Stream.run] at h; cases h; exact Or.inl hd
  | e :: es, s, s', h, d, hd => by
    rw [Stream.run] at h
    obtain ⟨s1, h1, h⟩ := bind_ok_inv h
    rcases utp_run_stored es h d hd with hd | ⟨p, hp, hx⟩
    · rcases utp_next_stored h1 d hd with hd | ⟨p, rfl, hx⟩
      · exact Or.inl hd
      · exact Or.inr ⟨p, List.mem_cons_self, hx⟩
    · exact Or.inr ⟨p, List.mem_cons_of_mem _ hp, hx⟩

theorem sackSize_le (s : Stream) : s.sackSize ≤ 100 := by
  unfold Stream.sackSize
  split
  · exact Nat.zero_le _
  · exact Nat.min_le_right _ _

/-- The state packet of a stream: its header and what its selective ack names. -/
theorem utp_state {s s' : Stream} (h : s.sendState = .ok s') :
    ∃ (hd : Header) (exts : List (Nat × List UInt8)), s'.wire = s.wire ++ [packetBytes ⟨hd, exts, []⟩] ∧ hd.typ = 2 ∧ hd.ack = s.ack ∧ hd.ext = firstExt exts ∧
      (∀ e ∈ exts, e.1 = 1 ∧ e.2.length < 256 ∧ ∀ q, SackNames s.ack e.2 q → ∃ d ∈ s.receivedData, d.seq = q) ∧
      (s.receivedData ≠ [] → ∃ bs, (1, bs) ∈ exts ∧ sackBytes s.receivedData (s.sackSize - 2) ((s.ack + 2) % 65536) 0 = .ok bs) := by
  unfold Stream.sendState Stream.stateBytes at h
  obtain ⟨b, h1, h⟩ := bind_ok_inv h
  cases h
  simp only at h1
  split at h1
  · rename_i hz
    cases h1
    refine ⟨_, [], by simp [packetBytes, extBytes]; rfl, rfl, rfl, rfl, (fun e he => by cases he), fun hne => ?_⟩
    exfalso
    unfold Stream.sackSize at hz
    cases hl : s.receivedData.getLast? with
    | none => exact hne (List.getLast?_eq_none_iff.mp hl)
    | some d => rw [hl] at hz; simp only at hz; omega
  · rename_i hz
    obtain ⟨bs, h2, h1⟩ := bind_ok_inv h1
    cases h1
    obtain ⟨g1, g2⟩ := sackBytes_sound s.receivedData _ _ 0 (Nat.mod_lt _ (by omega)) h2
    have hle := sackSize_le s
    refine ⟨_, [(1, bs)], by simp [packetBytes, extBytes, g1]; rfl, rfl, rfl, rfl, ?_, fun _ => ⟨bs, List.mem_singleton.mpr rfl, h2⟩⟩
    intro e he
    rw [List.mem_singleton] at he
    subst he
    refine ⟨rfl, by simp only [g1]; omega, ?_⟩
    rintro q ⟨i, j, b, hb, _, hbit, hq⟩
    obtain ⟨d, hd, hs⟩ := g2 i j b hb hbit
    exact ⟨d, hd, by rw [hs, hq]; omega⟩

/-- C64: a selective ack names only packets that have arrived, whatever the history of the stream. -/
theorem C64_selective {s s1 s2 : Stream} (hs : Starts s) {es : List Event} (hr : Stream.run es s = .ok s1) (hw : s1.sendState = .ok s2) :
    ∃ (hd : Header) (exts : List (Nat × List UInt8)), s2.wire = s1.wire ++ [packetBytes ⟨hd, exts, []⟩] ∧ hd.typ = 2 ∧ hd.ext = firstExt exts ∧
      ∀ e ∈ exts, e.1 = 1 ∧ e.2.length < 256 ∧ ∀ q, SackNames hd.ack e.2 q → ∃ p, Event.packet p ∈ es ∧ p.head.typ = 0 ∧ p.data ≠ [] ∧ p.head.seq = q := by
  obtain ⟨hd, exts, g1, g2, g3, g4, g5, _⟩ := utp_state hw
  refine ⟨hd, exts, g1, g2, g4, fun e he => ?_⟩
  obtain ⟨k1, k2, k3⟩ := g5 e he
  refine ⟨k1, k2, fun q hq => ?_⟩
  rw [g3] at hq
  obtain ⟨d, hd, rfl⟩ := k3 q hq
  rcases utp_run_stored es hr d hd with hd | ⟨p, h1, h2⟩
  · exfalso
    obtain ⟨id, seq, clock, _, _, h | ⟨hh, _, h⟩⟩ := hs
    · unfold Stream.connect Stream.schedule at h
      obtain ⟨t, _, h⟩ := bind_ok_inv h
      cases h
      simp [Stream.sendSyn, Stream.init] at hd
    · unfold Stream.connectRemote Stream.schedule at h
      obtain ⟨a, h1, h⟩ := bind_ok_inv h
      obtain ⟨t, _, h⟩ := bind_ok_inv h
      cases h
      rw [sendState_congr h1] at hd
      simp [Stream.init] at hd
  · exact ⟨p, h1, h2⟩

/-- C64: the ack covers parts that have all arrived and are delivered. -/
theorem C64_ack {s0 q0 : Nat} {ps : List (List UInt8)} (hne : ∀ p ∈ ps, p ≠ []) {s s1 s2 : Stream} (ho : Opened s0 s) (hu : Unsent q0 s) {es : List Event}
    (hf : Faithful s0 ps es s) (hr : Stream.run es s = .ok s1) (hw : s1.sendState = .ok s2) :
    ∃ (n : Nat) (hd : Header) (exts : List (Nat × List UInt8)), s2.wire = s1.wire ++ [packetBytes ⟨hd, exts, []⟩] ∧ hd.ack = (s0 + n + 65535) % 65536 ∧
      delivered s1 = (ps.take n).flatten ∧ ∀ k, k < n → PartArrived s0 ps es k := by
  obtain ⟨h1, h2⟩ := utp_recv_start (ps := ps) ho
  obtain ⟨arr', d', A', B', ks', j1, j2, _, _⟩ := utp_run_recv hne es h1 h2 (utp_sent_start hu) hf hr
  obtain ⟨hd, exts, g1, _, g3, _, _, _⟩ := utp_state hw
  refine ⟨d', hd, exts, g1, by rw [g3, j1.ack], j1.out, fun k hk => ?_⟩
  rcases j2 k (j1.pre k hk) with h | h
  · cases h
  · exact h

theorem utp_forall₂_get {α β} {R : α → β → Prop} {l : List α} {m : List β} (h : List.Forall₂ R l m) : ∀ (i : Nat) {a : α} {b : β}, l[i]? = some a → m[i]? = some b → R a b := by
  induction h with
  | nil => intro i a b ha; simp at ha
  | cons h _ ih =>
    intro i a b ha hb
    cases i with
    | zero => rw [List.getElem?_cons_zero] at ha hb; cases ha; cases hb; exact h
    | succ i => exact ih i (by simpa using ha) (by simpa using hb)

theorem sack_room {x f : Nat} (h : x ≤ f) (h2 : x < 784) (hf : f < 32768) : x < 8 * (min ((f + 1 + 7) % 4294967296 / 8 + 2) 100 - 2) := by
  rw [Nat.mod_eq_of_lt (by omega)]; omega

theorem sack_seq {s0 d x : Nat} (h : d + 1 ≤ x) : (s0 + x) % 65536 = (((s0 + d + 65535) % 65536 + 2) % 65536 + (x - (d + 1))) % 65536 := by omega

theorem sack_place {s0 d k : Nat} (h : d + 1 ≤ k) : (s0 + k) % 65536 = ((s0 + d + 65535) % 65536 + 2 + 8 * ((k - (d + 1)) / 8) + (k - (d + 1)) % 8) % 65536 := by
  have : 8 * ((k - (d + 1)) / 8) + (k - (d + 1)) % 8 = k - (d + 1) := Nat.div_add_mod _ _
  omega

theorem sack_diff {a L f : Nat} (ha : a < 65536) (hL : L = (a + 2 + f) % 65536) (hf : f < 32768) :
    ((if L < a then L + 65536 else L) + 4294967296 - (a + 1)) % 4294967296 = f + 1 := by
  rcases Nat.lt_or_ge (a + 2 + f) 65536 with h | h
  · have : L = a + 2 + f := by omega
    rw [if_neg (by omega)]; omega
  · have : L = a + 2 + f - 65536 := by omega
    rw [if_pos (by omega)]; omega

/-- C64: while numbers do not pass 65535, every part that has arrived is covered by the ack or, if it is no
more than 784 behind the first missing one, named by the selective ack. -/
theorem C64_complete_partial {s0 q0 : Nat} {ps : List (List UInt8)} (hne : ∀ p ∈ ps, p ≠ []) {s s1 s2 : Stream} (ho : Opened s0 s) (hu : Unsent q0 s) {es : List Event}
    (hwr : s0 + ps.length ≤ 65536) (hl : ps.length ≤ 32767) (hf : Faithful s0 ps es s) (hr : Stream.run es s = .ok s1) (hc : s1.step ≠ .closed) (hw : s1.sendState = .ok s2) :
    ∃ (n : Nat) (hd : Header) (exts : List (Nat × List UInt8)), s2.wire = s1.wire ++ [packetBytes ⟨hd, exts, []⟩] ∧ hd.ack = (s0 + n + 65535) % 65536 ∧
      ∀ k, PartArrived s0 ps es k → k < n ∨ (k ≤ n + 784 → ∃ e ∈ exts, e.1 = 1 ∧ SackNames hd.ack e.2 ((s0 + k) % 65536)) := by
  obtain ⟨h1, h2⟩ := utp_recv_start (ps := ps) ho
  obtain ⟨arr', d, A, B, ks, j1, j2, _, j4⟩ := utp_run_recv hne es h1 h2 (utp_sent_start hu) hf hr
  obtain ⟨hd, exts, g1, _, g3, _, _, g6⟩ := utp_state hw
  refine ⟨d, hd, exts, g1, by rw [g3, j1.ack], fun k hk => ?_⟩
  obtain ⟨hB, hfull⟩ := j1.full hc ⟨hwr, hl⟩
  have hrd : s1.receivedData = A := by rw [j1.split, hB, List.append_nil]
  have hin : k ∈ arr' := by
    obtain ⟨p, hp, c1, c2, c3⟩ := hk
    obtain ⟨k', hk', _, e2, e3⟩ := j4 p hp c1 (hne _ (List.mem_of_getElem? c3))
    have len : ∀ {x : Nat}, ps[x]? = some p.data → x < ps.length := by
      intro x hx
      rcases Nat.lt_or_ge x ps.length with hl | hl
      · exact hl
      · rw [List.getElem?_eq_none hl] at hx; cases hx
    have := len c3
    have := len e3
    have : k' = k := by omega
    exact this ▸ hk'
  rcases hfull k hin with hlt | hks
  · exact Or.inl hlt
  · right
    intro hnear
    have hlen : ks.length = A.length := j1.holds.length_eq
    have hget : ∀ i, i < A.length → ∃ x e, ks[i]? = some x ∧ A[i]? = some e ∧ Holds s0 ps s1 (d + 1) x e ∧ ks.getD i 0 = x := by
      intro i hi
      have hk1 : ks[i]? = some ks[i] := List.getElem?_eq_getElem (by omega)
      have ha1 : A[i]? = some A[i] := List.getElem?_eq_getElem hi
      exact ⟨_, _, hk1, ha1, utp_forall₂_get j1.holds i hk1 ha1, by rw [List.getD_eq_getElem?_getD, hk1]; rfl⟩
    have hord : InOrder s1.receivedData ((s1.ack + 2) % 65536) (fun i => ks.getD i 0 - (d + 1)) := by
      refine ⟨fun i e he => ?_, fun i hi => ?_, fun i j hij hj => ?_⟩
      · rw [hrd] at he
        have hi : i < A.length := by
          rcases Nat.lt_or_ge i A.length with hl | hl
          · exact hl
          · rw [List.getElem?_eq_none hl] at he; cases he
        obtain ⟨x, e', _, y2, y3, y4⟩ := hget i hi
        rw [he] at y2; cases y2
        simp only [y4]
        have := y3.lo
        rw [y3.seq, j1.ack]; exact sack_seq this
      · rw [hrd] at hi
        obtain ⟨x, e', _, y2, y3, y4⟩ := hget i hi
        simp only [y4]
        have := y3.hi
        omega
      · rw [hrd] at hj
        obtain ⟨x, _, x1, _, x3, x4⟩ := hget i (by omega)
        obtain ⟨y, _, y1, _, y3, y4⟩ := hget j hj
        simp only [x4, y4]
        have := x3.lo
        have hlt : x < y := by
          have hp := List.pairwise_iff_getElem.mp j1.sorted i j (by omega) (by omega) hij
          rw [List.getElem?_eq_getElem (by omega)] at x1 y1
          have ex := Option.some.inj x1
          have ey := Option.some.inj y1
          omega
        omega
    obtain ⟨i, hi, hik⟩ := List.mem_iff_getElem.mp hks
    have hiA : i < s1.receivedData.length := by rw [hrd]; omega
    have hdi : ks.getD i 0 = k := by rw [List.getD_eq_getElem?_getD, List.getElem?_eq_getElem hi, hik]; rfl
    obtain ⟨e0, _, hh⟩ := forall₂_mem' j1.holds hks
    have hlo := hh.lo
    have hnil : s1.receivedData ≠ [] := by intro h; rw [h] at hiA; simp at hiA
    obtain ⟨bs, hbs, hsb⟩ := g6 hnil
    refine ⟨(1, bs), hbs, rfl, ?_⟩
    have hN : k - (d + 1) < 8 * (s1.sackSize - 2) := by
      unfold Stream.sackSize
      cases hlast : s1.receivedData.getLast? with
      | none => exact absurd (List.getLast?_eq_none_iff.mp hlast) hnil
      | some e =>
        have hpos : s1.receivedData.length - 1 < s1.receivedData.length := by omega
        rw [List.getLast?_eq_getElem?] at hlast
        have hs := hord.seq _ e hlast
        have hf := hord.lt _ hpos
        have hle : k - (d + 1) ≤ ks.getD (s1.receivedData.length - 1) 0 - (d + 1) := by
          rcases Nat.eq_or_lt_of_le (show i ≤ s1.receivedData.length - 1 by omega) with he | hlt
          · rw [← he, hdi]; exact Nat.le_refl _
          · have := hord.mono i _ hlt hpos
            simp only [hdi] at this; omega
        generalize hfl : ks.getD (s1.receivedData.length - 1) 0 - (d + 1) = fl at hs hf hle
        have hk32 : fl < 32768 := by
          obtain ⟨x, e', _, _, y3, y4⟩ := hget (s1.receivedData.length - 1) (by rw [← hrd]; exact hpos)
          have := y3.hi
          rw [y4] at hfl
          omega
        have hdiff := sack_diff (a := s1.ack) (L := e.seq) (f := fl) (by rw [j1.ack]; omega) (by rw [hs]; omega) hk32
        simp only
        rw [hdiff]
        exact sack_room hle (by omega) hk32
    have hbit := sackBytes_full hord (s1.sackSize - 2) 0 0 (by have := sackSize_le s1; omega) (fun _ _ _ => Nat.zero_le _) (by simpa using hsb) i (Nat.zero_le _) hiA (by simp only [hdi, Nat.zero_add]; exact hN)
    simp only [hdi, Nat.sub_zero] at hbit
    obtain ⟨b, hb, ht⟩ := hbit
    refine ⟨(k - (d + 1)) / 8, (k - (d + 1)) % 8, b, hb, Nat.mod_lt _ (by omega), ht, ?_⟩
    rw [g3, j1.ack]; exact sack_place hlo

private def part (q : Nat) (data : List UInt8) : Event := .packet ⟨{ typ := 0, seq := q }, [], data⟩
private def openStream (a : Nat) : Stream := { step := .connected, ack := a, sequence := 100 }

/-- Parts 7, 9 and 12 of a stream that starts at 7 have arrived: the ack is 7, and the selective ack names 9 and 12. -/
example : ∃ s1 s2, Stream.run [part 9 [2, 2], part 7 [1], part 12 [4]] (openStream 6) = .ok s1 ∧ s1.sendState = .ok s2 ∧
    s2.wire.map (·.drop 18) = [[0, 7, 0, 1, 9]] := by
  obtain ⟨s1, h1, h2⟩ := Res.exists_ok (r := Stream.run [part 9 [2, 2], part 7 [1], part 12 [4]] (openStream 6))
    (p := fun s1 => (match s1.sendState with | .ok s2 => decide (s2.wire.map (·.drop 18) = [[0, 7, 0, 1, 9]]) | _ => false) = true) (by decide +kernel)
  cases hr : s1.sendState with
  | ok s2 => exact ⟨s1, s2, h1, hr, by simpa [hr] using h2⟩
  | ub => exact absurd h2 (by simp [hr])
  | diverge => exact absurd h2 (by simp [hr])

example : SackNames 7 [9] 9 ∧ SackNames 7 [9] 12 ∧ ¬SackNames 7 [9] 10 := by
  refine ⟨⟨0, 0, 9, rfl, by decide, by decide, rfl⟩, ⟨0, 3, 9, rfl, by decide, by decide, rfl⟩, ?_⟩
  rintro ⟨i, j, b, hb, hj, ht, hq⟩
  have hi : i = 0 := by
    cases i with
    | zero => rfl
    | succ i => simp at hb
  subst hi
  simp only [List.getElem?_cons_zero, Option.some.injEq] at hb
  subst hb
  have : j = 1 := by omega
  subst this
  exact absurd ht (by decide)

private def wrapParts : List Event := [.packet ⟨{ typ := 0, seq := 1, ack := 99, wnd := 1048576 }, [], [3]⟩,
  .packet ⟨{ typ := 0, seq := 0, ack := 99, wnd := 1048576 }, [], [2]⟩, .packet ⟨{ typ := 0, seq := 65535, ack := 99, wnd := 1048576 }, [], [1]⟩]
private def wrapStream : Stream := { step := .connected, sequence := 100, ack := 65534, lastAck := 99 }
private def wrapHead : Header := { typ := 2, ext := 1, wnd := 1048576, seq := 100, ack := 65535 }

/-- C64 is violated where numbers pass 65535: behind a packet 0 that came early and stays stored (`C62_wrap_violated`) nothing is
named. All three parts have arrived, but the ack covers the first one only and no bit of the selective ack is set. -/
theorem C64_wrap_violated : ∃ (s s1 s2 : Stream) (es : List Event) (ps : List (List UInt8)) (s0 q0 : Nat) (hd : Header) (exts : List (Nat × List UInt8)),
    Opened s0 s ∧ Unsent q0 s ∧ Faithful s0 ps es s ∧ (∀ k, k < 3 → PartArrived s0 ps es k) ∧ Stream.run es s = .ok s1 ∧ s1.step ≠ .closed ∧
    s1.sendState = .ok s2 ∧ s2.wire = s1.wire ++ [packetBytes ⟨hd, exts, []⟩] ∧ hd.ack = s0 ∧ ∀ e ∈ exts, ∀ q, ¬SackNames hd.ack e.2 q := by
  obtain ⟨s1, h1, h2, h3⟩ := Res.exists_ok (r := Stream.run wrapParts wrapStream)
    (p := fun s1 => s1.step = .connected ∧ (match s1.sendState with
      | .ok s2 => decide (s2.wire = s1.wire ++ [packetBytes ⟨wrapHead, [(1, [0])], []⟩])
      | _ => false) = true)
    (by decide +kernel)
  cases hr : s1.sendState with
  | ub => exact absurd h3 (by simp [hr])
  | diverge => exact absurd h3 (by simp [hr])
  | ok s2 =>
    refine ⟨wrapStream, s1, s2, wrapParts, [[1], [2], [3]], 65535, 100, wrapHead, [(1, [0])], ⟨Or.inr rfl, rfl, rfl, rfl, rfl⟩,
      ⟨Or.inr rfl, rfl, rfl, rfl, rfl, rfl, by decide, by decide⟩, utp_faithful (by decide) _ _ fun p hp _ _ => ?_, ?_, h1, by rw [h2]; simp, hr,
      by simpa [hr] using h3, rfl, ?_⟩
    · simp only [wrapParts, List.mem_cons, Event.packet.injEq, List.not_mem_nil, or_false] at hp
      rcases hp with rfl | rfl | rfl
      · exact ⟨2, rfl, rfl, rfl⟩
      · exact ⟨1, rfl, rfl, rfl⟩
      · exact ⟨0, rfl, rfl, rfl⟩
    · intro k hk
      match k, hk with
      | 0, _ => exact ⟨_, List.mem_cons_of_mem _ (List.mem_cons_of_mem _ List.mem_cons_self), rfl, rfl, rfl⟩
      | 1, _ => exact ⟨_, List.mem_cons_of_mem _ List.mem_cons_self, rfl, rfl, rfl⟩
      | 2, _ => exact ⟨_, List.mem_cons_self, rfl, rfl, rfl⟩
    · intro e he q
      rw [List.mem_singleton.mp he]
      rintro ⟨i, j, b, hb, hj, ht, -⟩
      cases i with
      | succ i => simp at hb
      | zero =>
        simp only [List.getElem?_cons_zero, Option.some.injEq] at hb
        subst hb
        simp at ht

end Verif
