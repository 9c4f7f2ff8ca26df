import Verif.Proof.UtpDatagram
/-! C32: uTP datagrams. -/

namespace Verif
open Utp Spec

/-- C32: for every datagram the header size is found without looking behind the datagram, and is 0 (not a uTP
packet) or between 20 and the size of the datagram. -/
theorem C32_header_size (data : List UInt8) (hl : data.length < 4294967296) :
    ∃ n, (∀ after, packetHeaderSize data after = .ok n) ∧ (n = 0 ∨ 20 ≤ n ∧ n ≤ data.length) := by
  by_cases h : data.length < 20
  · exact ⟨0, fun after => by unfold packetHeaderSize; rw [if_pos h], Or.inl rfl⟩
  · obtain ⟨n, -, h2, h3⟩ := parseHeaderSize_inside data [] (by omega) hl
    have ht := rd_eq_ok (l := data) (i := 0) (by omega)
    by_cases hv : data[0].toNat % 16 ≠ 1 ∨ data[0].toNat / 16 > 4
    · refine ⟨0, fun after => ?_, Or.inl rfl⟩
      unfold packetHeaderSize
      rw [if_neg h, ht, Res.bind_ok, if_pos hv]; rfl
    · refine ⟨n, fun after => ?_, h3.imp id fun h => ⟨h.1, h.2.1⟩⟩
      obtain ⟨m, g1, g2, -⟩ := parseHeaderSize_inside data after (by omega) hl
      rw [h2] at g2
      cases g2
      unfold packetHeaderSize
      rw [if_neg h, ht, Res.bind_ok, if_neg hv, g1]

/-- C32: every datagram is read without undefined behaviour or endless loop, and what is read, including all
extensions, does not depend on the memory behind the datagram. -/
theorem C32_inside (data : List UInt8) (hl : data.length < 4294967296) : ∃ p, ∀ after, readDatagram data after = .ok p := by
  obtain ⟨n, h1, h2⟩ := C32_header_size data hl
  by_cases hn : n = 0
  · subst hn
    refine ⟨none, fun after => ?_⟩
    unfold readDatagram
    rw [h1, Res.bind_ok, if_pos rfl]; rfl
  · have h20 : 20 ≤ data.length := by omega
    have hp : ∀ after, parseHeaderSize data after = .ok n := by
      intro after
      have := h1 after
      unfold packetHeaderSize at this
      have ht := rd_eq_ok (l := data) (i := 0) (by omega)
      rw [if_neg (by omega), ht, Res.bind_ok] at this
      split at this
      · cases this; exact absurd rfl hn
      · exact this
    have key : ∀ after, ∃ es, readExtensions data.length ((data ++ after).drop 20) (Header.read data).ext = .ok es ∧
          readExtensions data.length ((data ++ []).drop 20) (Header.read data).ext = .ok es := by
      intro after
      obtain ⟨m, g1, _, g3⟩ := parseHeaderSize_inside data after h20 hl
      rw [hp after] at g1
      cases g1
      rcases g3 with g3 | g3
      · exact absurd g3 hn
      · exact g3.2.2
    obtain ⟨es, -, e2⟩ := key []
    refine ⟨some ⟨Header.read data, es, data.drop n⟩, fun after => ?_⟩
    obtain ⟨fs, f1, f2⟩ := key after
    rw [e2] at f2
    cases f2
    unfold readDatagram
    rw [h1, Res.bind_ok, if_neg hn, f1]; rfl

private theorem read_header {h : Header} (h0 : h.typ ≤ 4) (h1 : h.ext < 256) (h2 : h.conn < 65536) (h3 : h.ts < 4294967296) (h4 : h.tsDiff < 4294967296)
    (h5 : h.wnd < 4294967296) (h6 : h.seq < 65536) (h7 : h.ack < 65536) (t : List UInt8) : Header.read (h.bytes ++ t) = h := by
  obtain ⟨typ, ext, conn, ts, tsDiff, wnd, seq, ack⟩ := h
  simp only at *
  simp only [Header.read, Header.bytes, be16, be32, List.cons_append, List.nil_append, List.take_succ_cons, List.take_zero, List.drop_succ_cons, List.drop_zero,
    beVal, List.foldl_cons, List.foldl_nil, UInt8.toNat_ofNat', Header.mk.injEq]
  refine ⟨?_, ?_, ?_, ?_, ?_, ?_, ?_, ?_⟩ <;> omega

/-- C32: a packet put together from a header, extensions and data is read as exactly these. -/
theorem C32_round_trip {p : Packet} (h : GoodPacket p) (hl : (packetBytes p).length < 4294967296) (after : List UInt8) :
    readDatagram (packetBytes p) after = .ok (some p) := by
  have hx : p.head.ext < 256 := by
    rw [h.ext]
    cases he : p.exts with
    | nil => simp [firstExt]
    | cons e es => exact (h.exts e (by simp [he])).2.1
  have hb : packetBytes p = p.head.bytes ++ (extBytes p.exts ++ p.data) := by unfold packetBytes; rw [List.append_assoc]
  have hlen : (packetBytes p).length = 20 + ((extBytes p.exts).length + p.data.length) := by
    rw [hb]; simp only [List.length_append, header_length]
  have hread : Header.read (packetBytes p) = p.head := by
    rw [hb]; exact read_header h.typ hx h.conn h.ts h.tsDiff h.wnd h.seq h.ack _
  have hd : (packetBytes p ++ after).drop 20 = extBytes p.exts ++ (p.data ++ after) := by
    rw [hb, ← header_length p.head, List.append_assoc, List.drop_left' rfl, List.append_assoc]
  have hd0 : (packetBytes p ++ []).drop 20 = extBytes p.exts ++ p.data := by
    rw [List.append_nil, hb, ← header_length p.head, List.drop_left' rfl]
  have h0 : rd (packetBytes p) 0 = .ok (UInt8.ofNat (p.head.typ * 16 + 1)) := by rw [hb]; rfl
  have h1 : rd (packetBytes p) 1 = .ok (UInt8.ofNat p.head.ext) := by rw [hb]; rfl
  have ht : (UInt8.ofNat (p.head.typ * 16 + 1)).toNat = p.head.typ * 16 + 1 := by
    have := h.typ; rw [UInt8.toNat_ofNat']; omega
  have hx' : (UInt8.ofNat p.head.ext).toNat = p.head.ext := by rw [UInt8.toNat_ofNat']; omega
  obtain ⟨a, h2, -⟩ := C32_header_size (packetBytes p) hl
  have hsize : packetHeaderSize (packetBytes p) [] = .ok (20 + (extBytes p.exts).length) := by
    unfold packetHeaderSize
    rw [if_neg (by omega), h0, Res.bind_ok, ht, if_neg (by have := h.typ; omega)]
    unfold parseHeaderSize
    rw [h1, Res.bind_ok, hx', hd0, h.ext, show (packetBytes p).length - 20 = (extBytes p.exts).length + p.data.length by omega,
      (extensions_written p.data p.exts (packetBytes p).length h.exts (by omega)).1, Res.bind_ok]
    simp only [Res.pure_eq]
    congr 1
    omega
  have hr := h2 []
  rw [hsize] at hr
  cases hr
  unfold readDatagram
  rw [h2 after, Res.bind_ok, if_neg (by omega), hread, hd, h.ext,
    (extensions_written (p.data ++ after) p.exts (packetBytes p).length h.exts (by omega)).2, Res.bind_ok]
  have hdata : (packetBytes p).drop (20 + (extBytes p.exts).length) = p.data := by
    rw [← List.drop_drop, hb, ← header_length p.head, List.drop_left' rfl, List.drop_left' rfl]
  rw [hdata]
  rfl

private def exPacket : Packet :=
  ⟨{ typ := 0, ext := 1, conn := 4660, ts := 99, tsDiff := 7, wnd := 1048576, seq := 65535, ack := 3 }, [(1, [5, 0, 0, 128]), (7, [])], ascii "data"⟩

example : GoodPacket exPacket := ⟨by decide, by decide, by decide, by decide, by decide, by decide, by decide, by decide, by decide⟩
example : readDatagram (packetBytes exPacket) [1, 2, 3] = .ok (some exPacket) := by decide +kernel
example : packetHeaderSize (packetBytes exPacket) [] = .ok 28 := by decide +kernel
/-- An extension that reaches one byte too far. -/
example : packetHeaderSize ((packetBytes exPacket).take 27) [0, 0, 0, 0] = .ok 0 := by decide +kernel

end Verif
