import Verif.Proof.Uploader
import Verif.Proof.UploaderLoad
import Verif.Model.Bandwidth
import Verif.Props.Storage
/-! C20 and C68: the queue of blocks to upload, and what is sent. -/

namespace Verif
open Uploader Spec Storage Layout

/-! ### C20 -/

/-- C20: what is sent was asked for, by this peer and with this block, and no request is sent twice. The number of a
request is its place among all requests. -/
theorem C20_at_most_once (i : Info) (es : List Uploader.Ev) (s : Uploader.State) (sent : List Sent) (got : Nat)
    (h : Uploader.run i {} es = .ok (s, sent, got)) :
    (sent.map (·.id)).Nodup ∧ ∀ x ∈ sent, (asked es)[x.id]? = some (x.peer, x.block) := by
  obtain ⟨H, _, _⟩ := Uploader.run_spec es hist_init h
  have hn := H.nodup
  simp only [List.nil_append] at hn
  exact ⟨(List.nodup_append.mp hn).1, by simpa using H.sent⟩

/-- C20 (partial: a smaller block may overtake, see `C20_overtaken_violated`): of two blocks sent, the one asked for
later is sent later, unless it is smaller. -/
theorem C20_order_partial (i : Info) (es : List Uploader.Ev) (s : Uploader.State) (sent : List Sent) (got : Nat)
    (h : Uploader.run i {} es = .ok (s, sent, got)) : sent.Pairwise fun x y => x.id < y.id ∨ x.block.length < y.block.length := by
  obtain ⟨H, _, _⟩ := Uploader.run_spec es hist_init h
  simpa using H.order

/-- C20: with blocks of one size, all is sent in the order asked for. -/
theorem C20_order (i : Info) (es : List Uploader.Ev) (s : Uploader.State) (sent : List Sent) (got n : Nat)
    (h : Uploader.run i {} es = .ok (s, sent, got)) (hn : ∀ q ∈ asked es, q.2.length = n) : sent.Pairwise fun x y => x.id < y.id := by
  obtain ⟨_, h1⟩ := C20_at_most_once i es s sent got h
  have h2 : ∀ x ∈ sent, x.block.length = n := fun x hx => hn _ (List.mem_of_getElem? (h1 x hx))
  refine (C20_order_partial i es s sent got h).imp_of_mem ?_
  intro x y hx hy hxy
  rw [h2 x hx, h2 y hy] at hxy
  omega

/-- C20 (partial: grants are not negative, see `C20_negative_violated`): the bytes sent are at most those granted, at once
or later. What is not used is still available. -/
theorem C20_granted_partial (i : Info) (es : List Uploader.Ev) (s : Uploader.State) (sent : List Sent) (got : Nat)
    (h : Uploader.run i {} es = .ok (s, sent, got)) (hg : ∀ a, Uploader.Ev.grant a ∈ es → 0 ≤ a) :
    (sentBytes sent : Int) + s.available ≤ got + given es ∧ s.uploaded = sentBytes sent := by
  obtain ⟨H, h1, _⟩ := Uploader.run_spec es hist_init h
  have h2 := h1 hg
  have e : (({} : Uploader.State).available : Int) = 0 := rfl
  rw [e] at h2
  exact ⟨by omega, by simpa using H.uploaded⟩

/-- C20: a request is sent or waits, as long as its peer stays connected and the torrent is not stopped. -/
theorem C20_kept (i : Info) (before after : List Uploader.Ev) (p : Nat) (b : BlockInfo) (now : Bool) (s : Uploader.State) (sent : List Sent) (got : Nat)
    (h : Uploader.run i {} (before ++ .request p b now :: after) = .ok (s, sent, got)) (hl : ∀ e ∈ after, ¬ Ends p e) :
    (∃ x ∈ sent, x.id = (asked before).length ∧ x.peer = p ∧ x.block = b) ∨ ⟨(asked before).length, p, b⟩ ∈ s.pending := by
  obtain ⟨s1, L1, g1, L2, g2, h1, h2, rfl, rfl⟩ := Uploader.run_append h
  obtain ⟨H1, _, _⟩ := Uploader.run_spec before hist_init h1
  obtain ⟨s3, L3, g3, L4, g4, h3, h4, rfl, rfl⟩ := Uploader.run_cons h2
  have S := Uploader.step_spec H1 h3
  obtain ⟨_, _, H4⟩ := Uploader.run_spec after S.hist h4
  have hc := H1.count
  simp only [List.nil_append] at hc
  have hin : (⟨(asked before).length, p, b⟩ : Req) ∈ s3.pending := by
    simp only [Uploader.step, pieceRequest, Res.pure_eq, Res.ok.injEq, Prod.mk.injEq] at h3
    obtain ⟨rfl, _, _⟩ := h3
    obtain ⟨r1, _, r3, _, _⟩ := requestBytes_spec s1 b.length now
    have : (requestBytes s1 b.length now).1.count = (asked before).length := r1.trans hc
    split <;> simp [this]
  rcases H4 _ hin hl with h5 | ⟨x, hx, h5⟩
  · exact .inr h5
  · refine .inl ⟨x, by simp [hx], ?_⟩
    simp only [toReq, Req.mk.injEq] at h5
    exact h5

/-- C20: when as many bytes are available as are waited for and all peers are connected, a run of the queue sends all of
it, in order. -/
theorem C20_flush (i : Info) (s s' : Uploader.State) (fs : Fs) (est : List Nat) (now : Bool) (sent : List Sent) (got : Nat)
    (h : Uploader.step i s (.send fs est now) = .ok (s', sent, got)) (hp : 0 < s.posted) (he : ∀ r ∈ s.pending, r.peer ∈ est)
    (hw : waitingBytes s.pending ≤ s.available) :
    sent.map (fun x => (x.id, x.peer, x.block)) = s.pending.map (fun r => (r.id, r.peer, r.block)) ∧ s'.pending = [] := by
  simp only [Uploader.step] at h
  rw [if_neg (by omega)] at h
  obtain ⟨p', K, ht, P, hq⟩ := send_inv h
  obtain ⟨L, h1, h2, h3⟩ := turns_all i fs est s.pending he _ _ hw ht
  have e1 : L = sent := by
    have := P.sent
    rw [h1] at this
    simpa using this
  have e2 : K = [] := by
    have := P.kept
    rw [h3] at this
    simpa using this
  subst e1 e2
  refine ⟨?_, ?_⟩
  · rw [← h2, List.map_map]
    rfl
  · rcases hq with ⟨_, hr⟩ | ⟨_, rfl, _⟩
    · have := (requestBytes_spec { s with posted := s.posted - 1, pending := [], buffer := p'.buffer, available := p'.available, uploaded := p'.uploaded } p'.wanted now).2.2.1
      rw [← hr] at this
      exact this
    · rfl

/-- C20 (partial: the manager never grants at once what the queue asks for after sending, see `C20_stalled_violated`, and
the bytes waited for stay below 2^32, see `C20_wrap_violated`): while blocks wait, bytes are asked for, or a run of the
queue is on its way. -/
theorem C20_alive_partial (i : Info) (es : List Uploader.Ev) (s : Uploader.State) (sent : List Sent) (got : Nat)
    (h : Uploader.run i {} es = .ok (s, sent, got)) (hn : ∀ fs est, Uploader.Ev.send fs est true ∉ es)
    (hb : ∀ a b s1 L1 g1, es = a ++ b → Uploader.run i {} a = .ok (s1, L1, g1) → waitingBytes s1.pending < 4294967296) :
    s.pending ≠ [] → s.requesting = true ∨ 0 < s.posted :=
  Uploader.run_alive es (fun hx => absurd rfl hx) hn hb h

/-- A torrent of one file with two pieces of 8 bytes. -/
def sample : Info := { files := [⟨16, 0, 0, 1, 8⟩], piecesCount := 2, pieceSize := 8, fullSize := 16 }

def sampleFs : Fs := [some [0, 1, 2, 3, 4, 5, 6, 7, 8, 9, 10, 11, 12, 13, 14, 15]]

/-- Two requests, of which one waits for a grant. -/
example : Uploader.run sample {} [.request 1 ⟨0, 0, 4⟩ true, .request 1 ⟨1, 2, 4⟩ false, .send sampleFs [1] false, .grant 4, .send sampleFs [1] false] =
    .ok ({ buffer := [10, 11, 12, 13], uploaded := 8, posted := 1, count := 2 },
      [⟨0, 1, ⟨0, 0, 4⟩, [0, 1, 2, 3]⟩, ⟨1, 1, ⟨1, 2, 4⟩, [10, 11, 12, 13]⟩], 4) := by decide +kernel

/-- C20 is false as to the order of requests of a peer: a smaller block overtakes a larger one, when the grant is enough
for the smaller one only. -/
theorem C20_overtaken_violated :
    (match Uploader.run sample {} [.request 1 ⟨0, 0, 8⟩ false, .request 1 ⟨1, 0, 4⟩ false, .grant 4, .send sampleFs [1] false, .grant 8, .send sampleFs [1] false] with
    | .ok (_, sent, _) => some (sent.map fun x => (x.id, x.peer))
    | _ => none) = some [(1, 1), (0, 1)] := by decide +kernel

/-- C20 is false as to requests being lost: when the manager grants at once what the queue asks for after sending,
nothing sends the blocks that wait; neither bytes are asked for nor is a run of the queue on its way. The manager does
so when its quota is large enough: here after eight grants of 100 bytes at a limit of 1000 bytes per second. -/
theorem C20_stalled_violated :
    (match Uploader.run sample {} [.request 1 ⟨0, 0, 8⟩ false, .request 1 ⟨1, 0, 4⟩ false, .grant 8, .send sampleFs [1] true] with
    | .ok (s, sent, _) => some (s.pending.map (·.id), s.requesting, s.posted, s.available, sent.map (·.id))
    | _ => none) = some ([1], false, 0, 4, [0]) ∧
    (match Bandwidth.run {} ([.setLimit 0 1000] ++ (List.replicate 8 [.request 7 100 1 [0], .tick 250 []]).flatten ++ [.request 7 50 1 [0]]) with
    | .ok (s, gs) => some (s.queue, gs.map (·.amount))
    | _ => none) = some ([], List.replicate 8 100 ++ [50]) := by decide +kernel

/-- C20 is false as to requests being lost: when the lengths that wait sum up to 2^32, no bytes are asked for. -/
theorem C20_wrap_violated :
    (match Uploader.run sample {} [.request 1 ⟨0, 0, 4⟩ false, .request 1 ⟨0, 0, 2147483648⟩ false, .request 1 ⟨0, 0, 2147483648⟩ false, .grant 4, .send sampleFs [1] false] with
    | .ok (s, sent, _) => some (s.pending.map (·.id), s.requesting, s.posted, sent.map (·.id))
    | _ => none) = some ([1, 2], false, 0, [0]) := by decide +kernel

/-- C20 is false as to granted bytes: a peer asks for 2^32-1 bytes and leaves; the manager grants -1 byte
(`C39_amount_violated`), and the uploader has 2^32-1 bytes to send from then on. -/
theorem C20_negative_violated :
    (match Uploader.run sample {} [.request 1 ⟨0, 0, 4294967295⟩ false, .cancel 1, .request 2 ⟨0, 0, 8⟩ false, .grant (-1), .send sampleFs [2] false] with
    | .ok (s, sent, got) => some (s.available, sent.map (·.id), got)
    | _ => none) = some (4294967287, [1], 0) := by decide +kernel

/-! ### C68 -/

/-- C68 (partial: torrents in which no file ends at the end of a piece, see `C68_overflow_violated`): whatever peers ask
for, and whatever files are there, nothing outside the buffer is touched. -/
theorem C68_memory_partial (ps : Nat) (fl : FileList) (hps : 0 < ps) (hps31 : ps < 2147483648)
    (h63 : (fileSizes fl).sum < 9223372036854775808) (h32 : pieceCount ps (fileSizes fl).sum < 4294967296) (hfl : NoBoundaryEnd ps fl) :
    ∃ i, parseInfo ps (pieceCount ps (fileSizes fl).sum) fl = .ok i ∧
      ∀ es : List Uploader.Ev, (∀ q ∈ asked es, q.2.begin < 4294967296 ∧ q.2.length < 4294967296) → ∃ o, Uploader.run i {} es = .ok o := by
  obtain ⟨i, h1, h2, h3⟩ := geo_layout ps fl hps hps31 h63 h32 hfl
  exact ⟨i, h1, fun es he => Uploader.run_ok (sane_geo hps31 h3) es {} (by intro r hr; cases hr) he⟩

/-- C68 (partial, as before): a block sent that lies inside its piece and the torrent is what the files hold there, if all
files are there. -/
theorem C68_content_partial (ps : Nat) (fl : FileList) (hps : 0 < ps) (hps31 : ps < 2147483648)
    (h63 : (fileSizes fl).sum < 9223372036854775808) (h32 : pieceCount ps (fileSizes fl).sum < 4294967296) (hfl : NoBoundaryEnd ps fl) :
    ∃ i, parseInfo ps (pieceCount ps (fileSizes fl).sum) fl = .ok i ∧
      ∀ (m : Mem) (s s' : Uploader.State) (est : List Nat) (now : Bool) (sent : List Sent) (got : Nat),
        Uploader.step i s (.send (m.files 0 (fileSizes fl)) est now) = .ok (s', sent, got) →
        ∀ x ∈ sent, x.block.begin + x.block.length ≤ ps → x.block.index * ps + x.block.begin + x.block.length ≤ (fileSizes fl).sum →
          x.data = m.read (x.block.index * ps + x.block.begin) x.block.length := by
  obtain ⟨i, h1, h2⟩ := C14_load_block_partial ps fl hps hps31 h63 h32 hfl
  refine ⟨i, h1, fun m s s' est now sent got h x hx hb he => ?_⟩
  obtain ⟨buf, st, hbuf, hl⟩ := sent_loaded h x hx
  rw [h2 m x.block buf hb he hbuf] at hl
  simp only [Res.ok.injEq, Prod.mk.injEq] at hl
  exact hl.2.symm

example : NoBoundaryEnd 8 (.multi [3, 10]) ∧ (fileSizes (.multi [3, 10])).sum = 13 := by
  refine ⟨?_, by decide⟩
  intro k hk
  simp at hk
  have : k = 0 ∨ k = 1 := by omega
  rcases this with rfl | rfl <;> decide

/-- C68 is false when a file that starts inside a piece ends at the end of it: the number of bytes to read is negative,
and the file is read past the end of the buffer. Here files of 3 and 5 bytes, pieces of 8 bytes, and a request for the
first 4 bytes. -/
theorem C68_overflow_violated : ∃ i, parseInfo 8 1 (.multi [3, 5]) = .ok i ∧
    Uploader.run i {} [.request 1 ⟨0, 0, 4⟩ true, .send [some [0, 1, 2], some [3, 4, 5, 6, 7]] [1] false] = .ub := by
  refine ⟨_, rfl, ?_⟩
  decide +kernel

/-- The same with the usual sizes: two files in a piece of 32 KiB, of which one has 100 bytes, and a request for 16 KiB. -/
theorem C68_usual_overflow_violated : ∃ i, parseInfo 32768 1 (.multi [100, 32668]) = .ok i ∧
    Uploader.run i {} [.request 1 ⟨0, 0, 16384⟩ true, .send [some (List.replicate 100 0), some (List.replicate 32668 0)] [1] false] = .ub := by
  refine ⟨_, rfl, ?_⟩
  decide +kernel

/-- C68 is false for a piece that does not exist, or a file that is not there: the bytes left in the buffer are sent. Here
piece 9 is "sent", with the bytes of piece 0. -/
theorem C68_stale_violated :
    (match Uploader.run sample {} [.request 1 ⟨0, 0, 4⟩ true, .send sampleFs [1] false, .request 1 ⟨9, 0, 4⟩ true, .send sampleFs [1] false] with
    | .ok (_, sent, _) => some (sent.map fun x => (x.block.index, x.data))
    | _ => none) = some [(0, [0, 1, 2, 3]), (9, [0, 1, 2, 3])] := by decide +kernel

end Verif
