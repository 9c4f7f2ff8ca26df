import Verif.Proof.HttpAnnounce
import Verif.Props.Http
/-! C61: announce replies of HTTP trackers. -/

namespace Verif
open Http Spec Bencode Net

/-- C61 (partial: for replies whose header arrived whole and gives the length of the body, for numbers below
2³¹ and peers in one compact text; see the violations): such a reply is read exactly. The response has the
interval, the counts and the peers of the dictionary, in their order. The number returned is the size of the
reply, so that what follows it stays. `junk` is what is left in memory where the addresses are made; no
address made with four bytes shows it. -/
theorem C61_reads_partial {status : List UInt8} {fs gs : List (List UInt8 × List UInt8)} {name : List UInt8} {kvs : List (List UInt8 × BVal)}
    (h : GoodHeader status (fs ++ (name, dec (BVal.dict kvs).enc.length) :: gs)) (h200 : says200 status)
    (hn : named (name, dec (BVal.dict kvs).enc.length) "CONTENT-LENGTH")
    (ho : ∀ f ∈ fs ++ gs, ¬named f "CONTENT-LENGTH" ∧ ¬named f "TRANSFER-ENCODING")
    (hf : (BVal.dict kvs).fits) (hc : (BVal.dict kvs).count < 65536)
    (hnum : ∀ name ∈ ["min interval", "interval", "complete", "incomplete"], number kvs name < 2147483648)
    (ps : List (List UInt8 × Nat)) (hps : ∀ p ∈ ps, p.1.length = 4 ∧ p.2 < 65536)
    (hp : textOf kvs "peers" = some (ps.flatMap compactPeer) ∨ (textOf kvs "peers" = none ∧ ps = []))
    (more after : List UInt8) (hm : more ++ after ≠ [])
    (hl : (header status (fs ++ (name, dec (BVal.dict kvs).enc.length) :: gs) ++ ((BVal.dict kvs).enc ++ more)).length < 4294967296)
    (junk : Addr) (n fuel : Nat) (hr : (fs ++ (name, dec (BVal.dict kvs).enc.length) :: gs).length + 2 ≤ n) (hfuel : (BVal.dict kvs).enc.length ≤ fuel) :
    readAnnounce junk n fuel (header status (fs ++ (name, dec (BVal.dict kvs).enc.length) :: gs) ++ ((BVal.dict kvs).enc ++ more)) after = .ok
      ((header status (fs ++ (name, dec (BVal.dict kvs).enc.length) :: gs)).length + (BVal.dict kvs).enc.length,
        { interval := interval kvs, seed := number kvs "complete", leech := number kvs "incomplete"
          peers := ps.map fun p => ⟨p.1 ++ junk.bytes.drop 4, p.2, false⟩ }) := by
  have hpos : (BVal.dict kvs).enc.length ≠ 0 := by simp [BVal.enc]
  have hlen := hl
  simp only [List.length_append] at hlen
  obtain ⟨i, h1, _, h3, h4, h5, h6⟩ := C43_length_partial h (by omega) hn ho ((BVal.dict kvs).enc ++ more) after hl n hr
  generalize hH : header status (fs ++ (name, dec (BVal.dict kvs).enc.length) :: gs) = H at *
  have hne : H.length ≠ 0 := by rw [← hH]; simp [header, crlf]
  obtain ⟨p, g1, _, _, _, g5⟩ := parseAt_enc (.dict kvs) fuel (H ++ ((BVal.dict kvs).enc ++ more) ++ after) H.length (BVal.dict kvs).enc.length (more ++ after)
    (by rw [List.append_assoc, List.drop_left' rfl, List.append_assoc]) hm (Nat.le_refl _) hf hc hfuel
  obtain ⟨o, r1, r2⟩ := root_at g5
  unfold readAnnounce
  rw [h1, Res.bind_ok, if_neg (by rw [h5.mpr (Or.inl hpos), h6.mpr h200]; simp), h3, h4,
    Nat.mod_eq_of_lt (show H.length + (BVal.dict kvs).enc.length < 4294967296 by simp only [List.length_append] at hl; omega),
    if_pos ⟨hpos, hne, by simp only [List.length_append]; omega⟩, g1, Res.bind_ok]
  simp only [r1, r2, BVal.ty, if_true]
  rw [readAnnounceDict_dict junk g5 hnum ps hps hp]
  rfl

/-- C61: a reply of which only part of the body has arrived is left alone until the rest has. -/
theorem C61_waits {status : List UInt8} {fs gs : List (List UInt8 × List UInt8)} {name : List UInt8} {k : Nat}
    (h : GoodHeader status (fs ++ (name, dec k) :: gs)) (h200 : says200 status) (hn : named (name, dec k) "CONTENT-LENGTH")
    (ho : ∀ f ∈ fs ++ gs, ¬named f "CONTENT-LENGTH" ∧ ¬named f "TRANSFER-ENCODING")
    (body after : List UInt8) (hb : body.length < k) (hk : (header status (fs ++ (name, dec k) :: gs)).length + k < 4294967296)
    (junk : Addr) (n fuel : Nat) (hr : (fs ++ (name, dec k) :: gs).length + 2 ≤ n) :
    readAnnounce junk n fuel (header status (fs ++ (name, dec k) :: gs) ++ body) after = .ok (0, {}) := by
  obtain ⟨i, h1, _, h3, h4, h5, h6⟩ := C43_length_partial h (by omega) hn ho body after (by simp only [List.length_append]; omega) n hr
  unfold readAnnounce
  rw [h1, Res.bind_ok, if_neg (by rw [h5.mpr (Or.inl (by omega)), h6.mpr h200]; simp), h3, h4, Nat.mod_eq_of_lt hk,
    if_neg (by simp only [List.length_append]; omega)]
  rfl

/-- C61: a reply that does not say it succeeded is refused, whatever it contains. -/
theorem C61_refused {status : List UInt8} {fs gs : List (List UInt8 × List UInt8)} {name : List UInt8} {k : Nat}
    (h : GoodHeader status (fs ++ (name, dec k) :: gs)) (h200 : ¬says200 status) (hn : named (name, dec k) "CONTENT-LENGTH")
    (ho : ∀ f ∈ fs ++ gs, ¬named f "CONTENT-LENGTH" ∧ ¬named f "TRANSFER-ENCODING") (hk : k < 4294967296)
    (body after : List UInt8) (hl : (header status (fs ++ (name, dec k) :: gs) ++ body).length < 4294967296)
    (junk : Addr) (n fuel : Nat) (hr : (fs ++ (name, dec k) :: gs).length + 2 ≤ n) :
    readAnnounce junk n fuel (header status (fs ++ (name, dec k) :: gs) ++ body) after = .ok (4294967295, {}) := by
  obtain ⟨i, h1, _, h3, h4, h5, h6⟩ := C43_length_partial h hk hn ho body after hl n hr
  unfold readAnnounce
  rw [h1, Res.bind_ok, if_pos (Or.inr (by simpa using mt h6.mp h200))]
  rfl

private def exJunk : Addr := ⟨List.replicate 16 (0xee : UInt8), 0, false⟩

private def exKvs : List (List UInt8 × BVal) :=
  [(ascii "complete", .int 7), (ascii "incomplete", .int 3), (ascii "interval", .int 1800), (ascii "peers", .str ([10, 0, 0, 1, 26, 225] ++ [10, 0, 0, 2, 0, 80]))]

private def exBody : List UInt8 := ascii "d8:completei7e10:incompletei3e8:intervali1800e5:peers12:" ++ [10, 0, 0, 1, 26, 225, 10, 0, 0, 2, 0, 80] ++ ascii "e"

example : (BVal.dict exKvs).enc = exBody := by decide +kernel

example : readAnnounce exJunk 9 100 (header (ascii "HTTP/1.1 200 OK") [(ascii "Content-Length", ascii "69")] ++ exBody ++ ascii "HTTP") [] = .ok
    (39 + 69, { interval := 1800, seed := 7, leech := 3, peers := [⟨[10, 0, 0, 1] ++ List.replicate 12 0xee, 6881, false⟩, ⟨[10, 0, 0, 2] ++ List.replicate 12 0xee, 80, false⟩] }) := by
  decide +kernel

example : readAnnounce exJunk 9 100 (header (ascii "HTTP/1.1 200 OK") [(ascii "Content-Length", ascii "69")] ++ exBody.take 68) [] = .ok (0, {}) := by decide +kernel

example : readAnnounce exJunk 9 100 (header (ascii "HTTP/1.1 404 Not Found") [(ascii "Content-Length", ascii "69")] ++ exBody) [] = .ok (4294967295, {}) := by decide +kernel

private def exWrap : List UInt8 := header (ascii "HTTP/1.1 200 OK") [(ascii "Content-Length", ascii "4294967290")] ++ ascii "d5:peers6:"

/-- C61 is false for a length near 2³²: the sum of header and length overflows and the reply counts as
complete. Peers are then read from the memory behind the buffer: the same reply gives different peers with
different bytes there, and is undefined if the memory ends. -/
theorem C61_overrun_violated :
    (∃ r, readAnnounce exJunk 9 100 exWrap ([1, 2, 3, 4, 5, 6] ++ ascii "e.") = .ok r ∧ r.2.peers = [⟨[1, 2, 3, 4] ++ List.replicate 12 0xee, 1286, false⟩]) ∧
    (∃ r, readAnnounce exJunk 9 100 exWrap ([9, 8, 7, 6, 0, 1] ++ ascii "e.") = .ok r ∧ r.2.peers = [⟨[9, 8, 7, 6] ++ List.replicate 12 0xee, 1, false⟩]) ∧
    readAnnounce exJunk 9 100 exWrap [] = .ub :=
  ⟨Res.exists_ok (by decide +kernel), Res.exists_ok (by decide +kernel), by decide +kernel⟩

/-- C61 is false for a header that arrives in parts: reading the first part does not end. -/
theorem C61_split_violated (ls : List (List UInt8)) (p after : List UInt8) (hls : ∀ l ∈ ls, l ≠ [] ∧ OneLine l) (hp : OneLine p) (h2 : 2 ≤ p.length)
    (hh : (ls.flatMap (fun l => l ++ crlf) ++ p).take 4 = ascii "HTTP") (junk : Addr) (n fuel : Nat) :
    readAnnounce junk n fuel (ls.flatMap (fun l => l ++ crlf) ++ p) after = .diverge := by
  unfold readAnnounce
  rw [C43_prefix_violated ls p after hls hp h2 hh n]
  rfl

end Verif
