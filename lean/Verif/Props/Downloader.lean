import Verif.Proof.DownloaderPolite
import Verif.Proof.DownloaderVerify
import Verif.Proof.DownloaderAllowed
/-! C17 and C19: what is asked for from whom, and what is announced and reported.

Histories begin in a state `Fresh s0` in which the transfer has not done anything yet (pieces may be
there already, others may be kept unfinished). `run sha hashes s0 es = .ok (s, h)`: after the events
`es` the state is `s`, and `h` says what was done at each event. -/

namespace Verif
open Downloader Layout Progress Spec Spec.Download

theorem fine_split {f : Pending} {g : List (Nat × Nat)} {as1 as2 : List Act} {p : Nat} {b : BlockInfo}
    (h : Downloader.Fine f g (as1 ++ .request p b :: as2)) :
    blockOf b ∉ as1.foldl pendingAct f p ∧ blockOf b ∉ as1.foldl gotAct g := by
  have := ((fine_append f g as1 _).1 h).2
  exact this.1 p b rfl

/-- What holds before and after each event of a history. -/
theorem split_ok {sha : List UInt8 → List UInt8} {hashes : List (List UInt8)} {s0 s : St} {es : List Downloader.Ev} {h : History}
    (hf : Download.Fresh s0) (hk : KeptOk s0) (hr : Downloader.run sha hashes s0 es = .ok (s, h)) {pre post : History} {e : Downloader.Ev}
    {as : List Act} (hs : h = pre ++ (e, as) :: post) :
    ∃ s1 s2, Downloader.run sha hashes s0 (pre.map (·.1)) = .ok (s1, pre) ∧ Downloader.step sha hashes s1 e = .ok (s2, as) ∧
      Downloader.Inv s1 ∧ Downloader.Sim s1 (pending pre) ∧ GotOk s1 (got pre) ∧ StepOk s1 e s2 as := by
  obtain ⟨s1, s2, h1, h2⟩ := Downloader.run_snoc es hr pre e as post hs
  obtain ⟨i1, i2, i3⟩ := Downloader.inv_fresh hf hk
  obtain ⟨hI, -, hS, hG⟩ := Downloader.run_ok _ _ _ i1 i2 i3 h1
  exact ⟨s1, s2, h1, h2, hI, hS, hG, Downloader.step_ok hI h2⟩

theorem run_more {sha : List UInt8 → List UInt8} {hashes : List (List UInt8)} {s0 s s' : St} {es : List Downloader.Ev}
    {h : History} {e : Downloader.Ev} {as : List Act} (hr : Downloader.run sha hashes s0 es = .ok (s, h))
    (hs : Downloader.step sha hashes s e = .ok (s', as)) :
    Downloader.run sha hashes s0 (es ++ [e]) = .ok (s', h ++ [(e, as)]) := by
  induction es generalizing s0 h with
  | nil =>
    simp only [Downloader.run, Res.ok.injEq, Prod.mk.injEq] at hr
    obtain ⟨rfl, rfl⟩ := hr
    simp [Downloader.run, hs]
  | cons x es ih =>
    simp only [Downloader.run] at hr
    obtain ⟨t, ht, hr⟩ := bindOk hr
    obtain ⟨u, hu, hr⟩ := bindOk hr
    simp only [Res.pure_eq, Res.ok.injEq, Prod.mk.injEq] at hr
    have := ih (s0 := t.1) (h := u.2) (by rw [← hr.1]; exact hu)
    simp [Downloader.run, ht, this, ← hr.2]

/-! ### C19 -/

/-- C19 (partial: a request counts as over when the peer unchokes or when the piece is complete, though the answer
may still come, see `C19_unchoke_violated`, `C19_other_peer_violated`): no block is asked for that is pending with the
same peer. -/
theorem C19_once_partial (sha : List UInt8 → List UInt8) (hashes : List (List UInt8)) (s0 s : St) (es : List Downloader.Ev)
    (h : History) (hf : Download.Fresh s0) (hk : KeptOk s0) (hr : Downloader.run sha hashes s0 es = .ok (s, h))
    (pre post : History) (e : Downloader.Ev) (as1 as2 : List Act) (p : Nat) (b : BlockInfo)
    (hs : h = pre ++ (e, as1 ++ .request p b :: as2) :: post) :
    blockOf b ∉ as1.foldl pendingAct (pendingEv (pending pre) e) p := by
  obtain ⟨s1, s2, -, -, -, hS, hG, hstep⟩ := split_ok hf hk hr hs
  exact (fine_split (hstep.sim _ _ hS hG).1).1

/-- C19 (partial: blocks received before the torrent was stopped are not counted): no block is asked for that is there,
in a piece not yet complete. -/
theorem C19_not_received_partial (sha : List UInt8 → List UInt8) (hashes : List (List UInt8)) (s0 s : St) (es : List Downloader.Ev)
    (h : History) (hf : Download.Fresh s0) (hk : KeptOk s0) (hr : Downloader.run sha hashes s0 es = .ok (s, h))
    (pre post : History) (e : Downloader.Ev) (as1 as2 : List Act) (p : Nat) (b : BlockInfo)
    (hs : h = pre ++ (e, as1 ++ .request p b :: as2) :: post) :
    blockOf b ∉ as1.foldl gotAct (gotEv (got pre) e) := by
  obtain ⟨s1, s2, -, -, -, hS, hG, hstep⟩ := split_ok hf hk hr hs
  exact (fine_split (hstep.sim _ _ hS hG).1).2

/-- C19 (partial, as `C19_once_partial`): never more than 100 requests are pending with a peer, no block twice. -/
theorem C19_limit_partial (sha : List UInt8 → List UInt8) (hashes : List (List UInt8)) (s0 s : St) (es : List Downloader.Ev)
    (h : History) (hf : Download.Fresh s0) (hk : KeptOk s0) (hr : Downloader.run sha hashes s0 es = .ok (s, h)) (p : Nat) :
    (pending h p).Nodup ∧ (pending h p).length ≤ 100 := by
  obtain ⟨i1, i2, i3⟩ := Downloader.inv_fresh hf hk
  obtain ⟨hI, -, hS, -⟩ := Downloader.run_ok _ _ _ i1 i2 i3 hr
  refine ⟨(hS p).1, ?_⟩
  rcases pending_le hI hS p with h0 | ⟨i, h1, h2⟩
  · rw [show pending h p = [] from h0]; simp
  · have := (hI.cur p i h1).2
    exact Nat.le_trans h2 this

/-- C19 (partial, as `C19_once_partial`): after an event at which a peer was asked for blocks, at most as many requests
are pending with it as its speed allows: the blocks it sent lately, but at least 5 and at most 100. -/
theorem C19_speed_partial (sha : List UInt8 → List UInt8) (hashes : List (List UInt8)) (s0 s : St) (es : List Downloader.Ev)
    (h : History) (hf : Download.Fresh s0) (hk : KeptOk s0) (e : Downloader.Ev) (as : List Act) (p : Nat) (b : BlockInfo)
    (hr : Downloader.run sha hashes s0 es = .ok (s, h ++ [(e, as)])) (hb : .request p b ∈ as) :
    ∃ i, s.infos.get p = some i ∧ (pending (h ++ [(e, as)]) p).length ≤ max 5 (min i.delta 100) := by
  have hev := run_events _ hr
  obtain ⟨es', rfl⟩ : ∃ es', es = es' ++ [e] := ⟨h.map (·.1), by rw [← hev]; simp⟩
  obtain ⟨s1, h1, as1, r1, r2, e1⟩ := run_concat es' e hr
  obtain ⟨i1, i2, i3⟩ := Downloader.inv_fresh hf hk
  obtain ⟨hI, -, hS, -⟩ := Downloader.run_ok _ _ _ i1 i2 i3 hr
  obtain ⟨hI1, -, -, -⟩ := Downloader.run_ok _ _ _ i1 i2 i3 r1
  obtain ⟨-, e2⟩ := List.append_inj' e1 rfl
  simp only [List.cons.injEq, Prod.mk.injEq, true_and, and_true] at e2
  rw [← e2] at r2
  obtain ⟨i, w1, w2⟩ := (Downloader.step_ok hI1 r2).asked p b hb
  refine ⟨i, w1, ?_⟩
  rcases pending_le hI hS p with h0 | ⟨j, h1, h2⟩
  · rw [show pending _ p = [] from h0]; simp
  · rw [w1] at h1
    simp only [Option.some.injEq] at h1
    subst h1
    exact Nat.le_trans h2 w2

/-- C19 (partial: peers that keep to the protocol and a selection that changes at once, see `C19_early_have_violated`,
`C19_deselected_violated`): what is asked for is a block of a piece that is selected and not received, and the peer said
that it has the piece. -/
theorem C19_wanted_partial (sha : List UInt8 → List UInt8) (hashes : List (List UInt8)) (s0 s : St) (es : List Downloader.Ev)
    (h : History) (hf : Download.Fresh s0) (hk : KeptOk s0)
    (hl : s0.files.progress.pieces.length = s0.files.info.piecesCount)
    (hn : 0 < s0.files.info.piecesCount ∧ s0.files.info.piecesCount ≤ 16777216)
    (e : Downloader.Ev) (as : List Act) (hp : Polite es)
    (hr : Downloader.run sha hashes s0 es = .ok (s, h ++ [(e, as)])) (p : Nat) (b : BlockInfo) (hb : .request p b ∈ as) :
    wantedPiece s.files.progress b.index = .ok true ∧ said es p b.index = true := by
  have hev := run_events _ hr
  obtain ⟨es', rfl⟩ : ∃ es', es = es' ++ [e] := ⟨h.map (·.1), by rw [← hev]; simp⟩
  obtain ⟨s1, h1, as1, r1, r2, e1⟩ := run_concat es' e hr
  obtain ⟨i1, -, -⟩ := Downloader.inv_fresh hf hk
  obtain ⟨p1, p2⟩ := (politeFrom_append _ _ _).1 hp
  obtain ⟨hI, hw⟩ := run_w es' _ _ i1 (w_fresh hf hl hn) p1 r1
  obtain ⟨-, e2⟩ := List.append_inj' e1 rfl
  simp only [List.cons.injEq, Prod.mk.injEq, true_and, and_true] at e2
  rw [← e2] at r2
  obtain ⟨-, ha⟩ := step_w hI hw p2.1 r2
  have := ha p b hb
  refine ⟨this.1, ?_⟩
  have e3 : said (es' ++ [e]) = saidEv (es'.foldl saidEv fun _ _ => false) e := by simp [said]
  rw [e3]
  exact this.2

/-- C19: asked is only a peer with which the handshake is done, whose connection has not ended, and whose last word on
choking is that we may ask. -/
theorem C19_allowed (sha : List UInt8 → List UInt8) (hashes : List (List UInt8)) (s0 s : St) (es : List Downloader.Ev)
    (h : History) (hf : Download.Fresh s0) (hk : KeptOk s0) (hr : Downloader.run sha hashes s0 es = .ok (s, h))
    (pre post : History) (e : Downloader.Ev) (as : List Act) (hs : h = pre ++ (e, as) :: post) (p : Nat) (b : BlockInfo)
    (hm : .request p b ∈ as) : unchoked (pre.map (·.1) ++ [e]) p = true ∧ joinedEv (joined pre) e p = true := by
  obtain ⟨s1, s2, h1, h2⟩ := Downloader.run_snoc es hr pre e as post hs
  obtain ⟨hI, hv⟩ := run_allowed hf hk _ h1
  have := (step_allowed hI hv h2).2.1 p b hm
  unfold unchoked at this ⊢
  rw [List.foldl_append]
  exact this

/-! ### C17 -/

/-- C17: have messages go only to peers with which the handshake is done and whose connection has not ended. -/
theorem C17_have_joined (sha : List UInt8 → List UInt8) (hashes : List (List UInt8)) (s0 s : St) (es : List Downloader.Ev)
    (h : History) (hf : Download.Fresh s0) (hk : KeptOk s0) (hr : Downloader.run sha hashes s0 es = .ok (s, h))
    (pre post : History) (e : Downloader.Ev) (as : List Act) (hs : h = pre ++ (e, as) :: post) (p i : Nat)
    (hm : .have p i ∈ as) : joinedEv (joined pre) e p = true := by
  obtain ⟨s1, s2, h1, h2⟩ := Downloader.run_snoc es hr pre e as post hs
  obtain ⟨hI, hv⟩ := run_allowed hf hk _ h1
  exact (step_allowed hI hv h2).2.2 p i hm

/-- C17: a piece is announced with a have message only after bytes were read whose hash is that of the piece. -/
theorem C17_have (sha : List UInt8 → List UInt8) (hashes : List (List UInt8)) (s0 s : St) (es : List Downloader.Ev)
    (h : History) (hf : Download.Fresh s0) (hk : KeptOk s0) (hr : Downloader.run sha hashes s0 es = .ok (s, h))
    (pre post : History) (e : Downloader.Ev) (as : List Act) (hs : h = pre ++ (e, as) :: post) (p i : Nat)
    (hh : .have p i ∈ as) : Verified sha hashes s0 pre i := by
  obtain ⟨s1, s2, h1, h2⟩ := Downloader.run_snoc es hr pre e as post hs
  obtain ⟨hI, hv⟩ := run_fresh hf hk _ h1
  exact hv i ((step_fresh hI h2).1.1 p i hh)

/-- C17: a piece that fails its check no longer counts as received; if it is selected, it is wanted again. -/
theorem C17_failed (sha : List UInt8 → List UInt8) (hashes : List (List UInt8)) (s s' : St) (l : Pieces)
    (hl : Rel s.files.progress l) (k i : Nat) (q : Downloader.Req) (data : Option (List UInt8)) (as : List Act)
    (hk : s.checks[k]? = some (i, q)) (hbad : ∀ d, data = some d → hashes[i]? ≠ some (sha d))
    (hs : Downloader.step sha hashes s (.check k data) = .ok (s', as)) :
    hasPiece s'.files.progress i = .ok false ∧
      (selectedPiece s.files.progress i = .ok true → wantedPiece s'.files.progress i = .ok true) := by
  simp only [Downloader.step, Downloader.check, hk] at hs
  obtain ⟨hash, hh, hs⟩ := bindOk hs
  have hc : checkResult sha hash data ≠ .success := by
    unfold checkResult
    cases data with
    | none => simp
    | some d =>
      simp only
      split
      · next e =>
        exfalso
        apply hbad d rfl
        unfold rd at hh
        cases e1 : hashes[i]? with
        | none => simp [e1] at hh
        | some y => simp only [e1, Res.ok.injEq] at hh; rw [hh, e]
      · simp
  unfold pieceChecked at hs
  simp only [hc, if_false] at hs
  obtain ⟨prog, hp, hs⟩ := bindOk hs
  simp only [Res.pure_eq, Res.ok.injEq, Prod.mk.injEq] at hs
  rw [← hs.1, (refreshSources_same _ _ _ _).1]
  exact removePiece_gone hl hp

/-- C17 (partial: a change of the selection is one event, see `C17_deselected_violated`): when the download is reported
finished, there was a moment before at which every selected piece was there from the beginning or had passed its check;
if the selection did not change since, that holds for the selection of now. -/
theorem C17_finished_partial (sha : List UInt8 → List UInt8) (hashes : List (List UInt8)) (s0 s : St) (es : List Downloader.Ev)
    (h : History) (hf : Download.Fresh s0) (hk : KeptOk s0) (l : Pieces) (hl : Rel s0.files.progress l)
    (hlen : l.length < 4294967296) (hns : ∀ e ∈ es, isSelect e = false) (hr : Downloader.run sha hashes s0 es = .ok (s, h))
    (pre post : History) (e : Downloader.Ev) (as : List Act) (hs : h = pre ++ (e, as) :: post) (hh : .finished ∈ as) :
    ∃ a b s1, pre = a ++ b ∧ Downloader.run sha hashes s0 (a.map (·.1)) = .ok (s1, a) ∧ AllVerified sha hashes s0 a s1 ∧
      ((∀ x ∈ b, changesSelection x.1 = false) →
        ∀ s2, Downloader.run sha hashes s0 (pre.map (·.1)) = .ok (s2, pre) → AllVerified sha hashes s0 pre s2) := by
  obtain ⟨s1, s2, h1, h2⟩ := Downloader.run_snoc es hr pre e as post hs
  have hev := run_events _ hr
  obtain ⟨hI, hv⟩ := run_ver hf hk hl hlen _ (fun x hx => hns x (by rw [← hev, hs]; simp at hx ⊢; tauto)) h1
  obtain ⟨a, b, t, e1, e2, e3, e4⟩ := hv.fin ((step_fresh hI h2).1.2 hh)
  refine ⟨a, b, t, e1, e2, e3, ?_⟩
  intro hb s3 h3
  rw [h1] at h3
  simp only [Res.ok.injEq, Prod.mk.injEq, and_true] at h3
  rw [← h3]
  intro i hi
  rw [e4 hb i] at hi
  rcases e3 i hi with h | h
  · exact Or.inl h
  · right; rw [e1]; exact Verified.append h b

/-! ### Examples -/

namespace DownloaderEx

/-- Two files of one piece of two blocks each. -/
def two : Info :=
  { files := [⟨32768, 0, 0, 0, 32768⟩, ⟨32768, 1, 0, 1, 32768⟩], piecesCount := 2, pieceSize := 32768, fullSize := 65536,
    lastPieceIndex := 1, lastPieceSize := 32768, lastPieceLastBlockIndex := 1, lastPieceLastBlockSize := 16384 }

def s0 : St := { files := ⟨two, [true, true], ⟨[0, 0], 2, 0, 0⟩⟩, prio := [50, 50], running := false }

/-- For the examples the hash is the content, of one byte. -/
def hashes : List (List UInt8) := [[1], [2]]

def both : List (Nat × Nat) := [(0, 50), (1, 50)]

def block (i k : Nat) : BlockInfo := ⟨i, k * 16384, 16384⟩

/-- Block `k` of piece `i` from `p`. -/
def recv (p i k : Nat) : Downloader.Ev := .message p (.piece (block i k) 5)

/-- A peer that connects, says what it has and lets us ask. -/
def peer (p : Nat) (d : List UInt8) : List Downloader.Ev :=
  [.connect p, .handshake p, .message p (.bitfield d), .message p .unchoke]

def acts (es : List Downloader.Ev) : Option (List (List Act)) :=
  match Downloader.run id hashes s0 es with
  | .ok (_, h) => some (h.map (·.2))
  | _ => none

/-- The history of `es`. -/
def hist (es : List Downloader.Ev) : History :=
  match Downloader.run id hashes s0 es with
  | .ok (_, h) => h
  | _ => []

def state (es : List Downloader.Ev) : St :=
  match Downloader.run id hashes s0 es with
  | .ok (s, _) => s
  | _ => s0

theorem fresh : Download.Fresh s0 := ⟨rfl, rfl, rfl, rfl, rfl, rfl, rfl⟩

theorem kept : KeptOk s0 := by intro u hu; simp [s0] at hu

theorem rel : Rel s0.files.progress [⟨false, true⟩, ⟨false, true⟩] := by
  constructor <;> decide

theorem ok {es : List Downloader.Ev} (h : (acts es).isSome = true) :
    Downloader.run id hashes s0 es = .ok (state es, hist es) := by
  unfold acts at h
  unfold state hist
  split at h
  · next e => simp [e]
  · simp at h

def whole : List Downloader.Ev :=
  [.start both] ++ peer 1 [192] ++ [recv 1 0 0, recv 1 0 1, .check 0 (some [1]), .tick, recv 1 1 0, recv 1 1 1,
    .check 0 (some [2]), .tick, .finish]

/-- A download: everything is asked for once, each piece is announced after its check, the end is reported. -/
theorem whole_acts : acts whole = some [[], [], [], [.interested 1],
    [.request 1 (block 0 0), .request 1 (block 0 1), .request 1 (block 1 0), .request 1 (block 1 1)],
    [.store (block 0 0)], [.store (block 0 1), .completed 0], [], [.have 1 0],
    [.store (block 1 0)], [.store (block 1 1), .completed 1], [], [.have 1 1], [.close 1, .finished]] := by decide +kernel

theorem whole_ok : Downloader.run id hashes s0 whole = .ok (state whole, hist whole) := ok (by decide +kernel)

def asking : List Downloader.Ev := [.start both] ++ peer 1 [192]

theorem asking_ok : Downloader.run id hashes s0 asking = .ok (state asking, hist asking) := ok (by decide +kernel)

theorem asking_hist : hist asking = hist ([.start both] ++ (peer 1 [192]).take 3) ++
    [(.message 1 .unchoke, [.request 1 (block 0 0), .request 1 (block 0 1)] ++ .request 1 (block 1 0) :: [.request 1 (block 1 1)])] := by
  decide +kernel

end DownloaderEx

open DownloaderEx

/-- Here somebody is asked who lets us; and nobody else is. -/
example : unchoked asking 1 = true ∧ joined (hist asking) 1 = true ∧ unchoked ([.start both] ++ (peer 1 [192]).take 3) 1 = false ∧
    unchoked (asking ++ [.message 1 .choke]) 1 = false ∧ joined (hist whole) 1 = false ∧ joined (hist (whole.take 13)) 1 = true := by
  decide +kernel

example : (0, 1) ∈ [Act.request 1 (block 0 0), .request 1 (block 0 1)].foldl pendingAct
      (pendingEv (pending (hist ([.start both] ++ (peer 1 [192]).take 3))) (.message 1 .unchoke)) 1 ∧
    blockOf (block 1 0) ∉ [Act.request 1 (block 0 0), .request 1 (block 0 1)].foldl pendingAct
      (pendingEv (pending (hist ([.start both] ++ (peer 1 [192]).take 3))) (.message 1 .unchoke)) 1 :=
  ⟨by decide +kernel, C19_once_partial id DownloaderEx.hashes DownloaderEx.s0 _ _ _ fresh kept asking_ok _ [] _ _ _ _ _ asking_hist⟩

/-- A second peer is asked only for the block that is missing. -/
example : ∃ pre, hist ([.start both] ++ peer 1 [128] ++ [recv 1 0 0] ++ peer 2 [128]) =
      pre ++ [(.message 2 .unchoke, [] ++ .request 2 (block 0 1) :: [])] ∧ got pre = [(0, 0)] ∧
    blockOf (block 0 1) ∉ [].foldl gotAct (gotEv (got pre) (.message 2 .unchoke)) := by
  have h : hist ([.start both] ++ peer 1 [128] ++ [recv 1 0 0] ++ peer 2 [128]) =
      hist ([.start both] ++ peer 1 [128] ++ [recv 1 0 0] ++ (peer 2 [128]).take 3) ++
        [(.message 2 .unchoke, [] ++ .request 2 (block 0 1) :: [])] := by decide +kernel
  refine ⟨_, h, by decide +kernel, ?_⟩
  exact C19_not_received_partial id DownloaderEx.hashes DownloaderEx.s0 _ _ _ fresh kept (ok (by decide +kernel)) _ [] _ _ _ _ _ h

example : pending (hist asking) 1 = [(1, 1), (1, 0), (0, 1), (0, 0)] ∧ (pending (hist asking) 1).length ≤ 100 :=
  ⟨by decide +kernel, (C19_limit_partial id DownloaderEx.hashes DownloaderEx.s0 _ _ _ fresh kept asking_ok 1).2⟩

example : ∃ i, (state asking).infos.get 1 = some i ∧ (pending (hist asking) 1).length ≤ max 5 (min i.delta 100) := by
  have := C19_speed_partial id DownloaderEx.hashes DownloaderEx.s0 (state asking) asking
    (hist ([.start both] ++ (peer 1 [192]).take 3)) fresh kept (.message 1 .unchoke)
    ([.request 1 (block 0 0), .request 1 (block 0 1)] ++ .request 1 (block 1 0) :: [.request 1 (block 1 1)]) 1 (block 1 0)
    (by rw [asking_ok, asking_hist]) (by simp)
  rw [← asking_hist] at this
  exact this

example : wantedPiece (state asking).files.progress 1 = .ok true ∧ said asking 1 1 = true :=
  C19_wanted_partial id DownloaderEx.hashes DownloaderEx.s0 (state asking) asking
    (hist ([.start both] ++ (peer 1 [192]).take 3)) fresh kept rfl (by decide) (.message 1 .unchoke)
    ([.request 1 (block 0 0), .request 1 (block 0 1)] ++ .request 1 (block 1 0) :: [.request 1 (block 1 1)])
    (by simp [Polite, asking, peer, politeFrom, politeEv, phaseEv]) (by rw [asking_ok, asking_hist]) 1 (block 1 0) (by simp)

/-- A piece the peer has not is not asked for. -/
example : acts ([.start both] ++ peer 1 [128]) =
    some [[], [], [], [.interested 1], [.request 1 (block 0 0), .request 1 (block 0 1)]] := by decide +kernel

example : Verified id DownloaderEx.hashes DownloaderEx.s0 (hist (whole.take 8)) 0 :=
  C17_have id DownloaderEx.hashes DownloaderEx.s0 _ whole (hist whole) fresh kept whole_ok (hist (whole.take 8)) ((hist whole).drop 9)
    .tick [.have 1 0] (by decide +kernel) 1 0 (by simp)

/-- A bad piece: it is wanted again, and its only source is banned. -/
example : acts ([.start both] ++ peer 1 [192] ++ [recv 1 0 0, recv 1 0 1, .check 0 (some [7]), .tick]) = some [[], [], [], [.interested 1],
    [.request 1 (block 0 0), .request 1 (block 0 1), .request 1 (block 1 0), .request 1 (block 1 1)],
    [.store (block 0 0)], [.store (block 0 1), .completed 0], [.ban 1], []] := by decide +kernel

example : hasPiece (state (whole.take 7 ++ [.check 0 (some [7])])).files.progress 0 = .ok false ∧
    wantedPiece (state (whole.take 7 ++ [.check 0 (some [7])])).files.progress 0 = .ok true := by
  have := C17_failed id DownloaderEx.hashes (state (whole.take 7)) (state (whole.take 7 ++ [.check 0 (some [7])])) [⟨true, true⟩, ⟨false, true⟩]
    (by constructor <;> decide +kernel) 0 0 _ (some [7]) [.ban 1]
    (show (state (whole.take 7)).checks[0]? = some (0, ⟨⟨[1, 1], 0, 32768, 0⟩, 2, [1], [1], []⟩) by decide +kernel)
    (by intro d hd; simp only [Option.some.injEq] at hd; subst hd; decide) (by decide +kernel)
  exact ⟨this.1, this.2 (by decide +kernel)⟩

example : ∃ a b s1, hist (whole.take 13) = a ++ b ∧
    Downloader.run id DownloaderEx.hashes DownloaderEx.s0 (a.map (·.1)) = .ok (s1, a) ∧
    AllVerified id DownloaderEx.hashes DownloaderEx.s0 a s1 := by
  obtain ⟨a, b, s1, h1, h2, h3, -⟩ := C17_finished_partial id DownloaderEx.hashes DownloaderEx.s0 _ whole (hist whole) fresh kept _ rel (by decide)
    (by decide) whole_ok (hist (whole.take 13)) [] .finish [.close 1, .finished] (by decide +kernel) (by simp)
  exact ⟨a, b, s1, h1, h2, h3⟩

/-! ### Where C19 fails -/

/-- C19 fails: an unchoke without a choke before, and everything is asked for again. -/
theorem C19_unchoke_violated : ∃ es h s, Downloader.run id DownloaderEx.hashes DownloaderEx.s0 es = .ok (s, h) ∧ Polite es ∧
    onWire h 1 = [(1, 1), (1, 0), (0, 1), (0, 0), (1, 1), (1, 0), (0, 1), (0, 0)] :=
  ⟨asking ++ [.message 1 .unchoke], _, _, ok (by decide +kernel),
    by simp [Polite, asking, peer, politeFrom, politeEv, phaseEv], by decide +kernel⟩

/-- C19 fails: a piece is completed by another peer and fails its check; a peer that never answered is asked for the same
blocks again. -/
theorem C19_other_peer_violated : ∃ es h s, Downloader.run id DownloaderEx.hashes DownloaderEx.s0 es = .ok (s, h) ∧ Polite es ∧
    onWire h 2 = [(0, 1), (0, 0), (0, 1), (0, 0)] :=
  ⟨[.start both] ++ peer 1 [128] ++ peer 2 [128] ++ [recv 1 0 0, recv 1 0 1, .check 0 (some [7]), .message 2 (.have 0)], _, _,
    ok (by decide +kernel), by simp [Polite, peer, recv, politeFrom, politeEv, phaseEv], by decide +kernel⟩

/-- C19 fails: a message before the handshake makes the peer appear to have everything (its table then has one
element). -/
theorem C19_early_have_violated : ∃ es h s, Downloader.run id DownloaderEx.hashes DownloaderEx.s0 es = .ok (s, h) ∧
    (∀ e ∈ es, e ≠ .message 1 (.have 1) ∧ ∀ d, e ≠ .message 1 (.bitfield d)) ∧
    ∃ x ∈ h, .request 1 (block 1 0) ∈ x.2 :=
  ⟨[.start both, .connect 1, .message 1 (.have 0), .message 1 .unchoke, .handshake 1, .message 1 .unchoke], _, _, ok (by decide +kernel),
    by simp, by decide +kernel⟩

/-- C19 fails: between the change of the selection and the refresh of the requests, blocks of a piece no longer selected
are asked for. -/
theorem C19_deselected_violated : ∃ es h s, Downloader.run id DownloaderEx.hashes DownloaderEx.s0 es = .ok (s, h) ∧
    ∃ a, h.getLast? = some (.message 1 .unchoke, a) ∧ .request 1 (block 0 0) ∈ a ∧
      wantedPiece s.files.progress 0 = .ok false :=
  ⟨asking ++ [.select 0 false, .message 1 .unchoke], _, _, ok (by decide +kernel),
    [.request 1 (block 0 0), .request 1 (block 0 1), .request 1 (block 1 0), .request 1 (block 1 1)],
    by decide +kernel, by decide, by decide +kernel⟩

/-! ### Where C17 fails -/

/-- C17 fails: the bitfield sent after a handshake contains a piece that is still being checked, and then fails. -/
theorem C17_bitfield_violated : ∃ es h s, Downloader.run id DownloaderEx.hashes DownloaderEx.s0 es = .ok (s, h) ∧ Polite es ∧
    (∃ x ∈ h, .bitfield 2 [128] ∈ x.2) ∧ hasPiece s.files.progress 0 = .ok false :=
  ⟨asking ++ [recv 1 0 0, recv 1 0 1, .connect 2, .handshake 2, .check 0 (some [7])], _, _, ok (by decide +kernel),
    by simp [Polite, asking, peer, recv, politeFrom, politeEv, phaseEv], by decide +kernel, by decide +kernel⟩

/-- C17 fails: a piece completed between deselection and the refresh of the requests is never checked, counts as received,
and the download is reported finished with it selected again. -/
theorem C17_deselected_violated : ∃ es h s, Downloader.run id DownloaderEx.hashes DownloaderEx.s0 es = .ok (s, h) ∧
    (∃ a, h.getLast? = some (.finish, a) ∧ .finished ∈ a) ∧ selectedPiece s.files.progress 0 = .ok true ∧
    hasPiece s.files.progress 0 = .ok true ∧ ∀ x ∈ h, ∀ k d, x.1 = .check k d → d = some [2] :=
  ⟨asking ++ [recv 1 0 0, .select 0 false, recv 1 0 1, .refresh [(1, 50)], .selectFile 0 true both, recv 1 1 0, recv 1 1 1,
      .check 0 (some [2]), .finish], _, _, ok (by decide +kernel),
    ⟨[.close 1, .finished], by decide +kernel, by decide⟩, by decide +kernel, by decide +kernel, by
      intro x hx k d hc
      have he := run_events _ (ok (es := asking ++ [recv 1 0 0, .select 0 false, recv 1 0 1, .refresh [(1, 50)],
        .selectFile 0 true both, recv 1 1 0, recv 1 1 1, .check 0 (some [2]), .finish]) (by decide +kernel))
      have hm := List.mem_map_of_mem (f := (·.1)) hx
      rw [he, hc] at hm
      simp [asking, peer, recv] at hm
      exact hm.2⟩

/-- C17 fails: the end is posted, a file is selected before it is reported. -/
theorem C17_reselected_violated : ∃ es h s, Downloader.run id DownloaderEx.hashes DownloaderEx.s0 es = .ok (s, h) ∧
    (∃ a, h.getLast? = some (.finish, a) ∧ .finished ∈ a) ∧ wantedPiece s.files.progress 0 = .ok true :=
  ⟨[.start both, .selectFile 0 false [(1, 50)]] ++ peer 1 [192] ++
      [recv 1 1 0, recv 1 1 1, .check 0 (some [2]), .selectFile 0 true both, .finish], _, _, ok (by decide +kernel),
    ⟨[.close 1, .finished], by decide +kernel, by decide⟩, by decide +kernel⟩

/-- C17 fails: a piece from two sources fails its check when nothing else is left to download. It is wanted, both peers
have it and let us ask, and nothing is asked for, however often the timer fires: it is not downloaded again. -/
theorem C17_stalled_violated : ∃ es, ∀ n, ∃ h s, Downloader.run id DownloaderEx.hashes DownloaderEx.s0 (es ++ List.replicate n .tick) = .ok (s, h) ∧
    Polite es ∧ wantedPiece s.files.progress 0 = .ok true ∧ (∀ p, pending h p = []) ∧ s.requests = [] ∧
    ∀ p, p = 1 ∨ p = 2 → ∃ x, s.peers.get p = some x ∧ x.action = .established ∧ x.choking = false ∧ hasPiece x.pieces 0 = .ok true := by
  refine ⟨[.start both] ++ peer 1 [192] ++ peer 2 [192] ++ [recv 1 0 0, recv 2 0 1, recv 1 1 0, recv 2 1 1,
    .check 0 (some [7]), .check 0 (some [2]), .tick], ?_⟩
  generalize hes : ([.start both] ++ peer 1 [192] ++ peer 2 [192] ++ [recv 1 0 0, recv 2 0 1, recv 1 1 0, recv 2 1 1,
    .check 0 (some [7]), .check 0 (some [2]), .tick] : List Downloader.Ev) = es
  have hpol : Polite es := by subst hes; simp [Polite, peer, recv, politeFrom, politeEv, phaseEv]
  have hrun := ok (es := es) (by subst hes; decide +kernel)
  have htick : Downloader.step id DownloaderEx.hashes (state es) .tick = .ok (state es, []) := by subst hes; decide +kernel
  have hall : ∀ n, ∃ h, Downloader.run id DownloaderEx.hashes DownloaderEx.s0 (es ++ List.replicate n .tick) = .ok (state es, h) ∧
      ∀ p, pending h p = [] := by
    intro n
    induction n with
    | zero =>
      refine ⟨hist es, by simpa using hrun, ?_⟩
      intro p
      by_cases h1 : p = 1
      · subst h1; subst hes; decide +kernel
      by_cases h2 : p = 2
      · subst h2; subst hes; decide +kernel
      have hI := inv_fresh fresh kept
      obtain ⟨_, _, hS, _⟩ := run_ok _ _ _ hI.1 hI.2.1 hI.2.2 hrun
      cases hp : pending (hist es) p with
      | nil => rfl
      | cons x l =>
        obtain ⟨i, hi, -⟩ := (hS p).2 x (by rw [show List.foldl pendingStep (fun _ => []) (hist es) p = pending (hist es) p from rfl, hp]; simp)
        have hk : (state es).infos.map (·.1) = [1, 2] := by subst hes; decide +kernel
        have := List.mem_map_of_mem (f := (·.1)) (Map.get_mem hi)
        rw [hk] at this
        simp [h1, h2] at this
    | succ n ih =>
      obtain ⟨h, h1, h2⟩ := ih
      refine ⟨h ++ [(.tick, [])], ?_, ?_⟩
      · rw [List.replicate_succ', ← List.append_assoc]
        exact run_more h1 htick
      · intro p; simpa [pending, pendingStep, pendingEv] using h2 p
  intro n
  obtain ⟨h, h1, h2⟩ := hall n
  refine ⟨h, state es, h1, hpol, by subst hes; decide +kernel, h2, by subst hes; decide +kernel, ?_⟩
  rintro p (rfl | rfl)
  · exact ⟨((state es).peers.get 1).getD {}, by subst hes; decide +kernel, by subst hes; decide +kernel, by subst hes; decide +kernel, by subst hes; decide +kernel⟩
  · exact ⟨((state es).peers.get 2).getD {}, by subst hes; decide +kernel, by subst hes; decide +kernel, by subst hes; decide +kernel, by subst hes; decide +kernel⟩

end Verif
