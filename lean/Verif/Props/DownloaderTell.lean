import Verif.Props.Downloader
import Verif.Proof.DownloaderTell
/-! C95: every connected peer is told of every piece. -/

namespace Verif
open Downloader Layout Progress Spec Spec.Download Spec.Tell

/-- C95 (partial: a change of the selection is one event, see `C95_deselected_violated`): after the timer every peer with which the handshake is
done was told, on this connection, of every piece we have, unless the piece is still being checked. -/
theorem C95_told_partial (sha : List UInt8 → List UInt8) (hashes : List (List UInt8)) (s0 s : St) (es : List Downloader.Ev)
    (h : History) (hf : Download.Fresh s0) (hk : KeptOk s0) (l : Pieces) (hl : Rel s0.files.progress l) (hlen : l.length ≤ 16777216)
    (hns : ∀ e ∈ es, isSelect e = false) (hr : Downloader.run sha hashes s0 (es ++ [.tick]) = .ok (s, h)) (p : Nat) (hp : Connected s p)
    (i : Nat) (hi : i < s.files.progress.pieces.length) (hh : hasPiece s.files.progress i = .ok true) :
    told h p i = true ∨ i ∈ s.checks.map (·.1) := by
  have hns' : ∀ e ∈ es ++ [.tick], isSelect e = false := by
    intro e he
    rcases List.mem_append.1 he with he | he
    · exact hns e he
    · simp only [List.mem_singleton] at he; rw [he]; rfl
  obtain ⟨ht, -⟩ := run_tells hf hk hl hlen _ hns' hr
  obtain ⟨hI, hv⟩ := run_ver hf hk hl (by omega) _ hns' hr
  obtain ⟨l', hl', -⟩ := hv.b.body
  have hi' : i < l'.length := by rw [← length_eq hl']; exact hi
  rw [hasPiece_eq hl' i hi'] at hh
  simp only [Res.ok.injEq] at hh
  rcases ht.know p hp i l' l'[i] hl' (by simp [hi']) hh with h | h | h
  · exact Or.inl h
  · exfalso
    obtain ⟨peer, hp1, -⟩ := hp
    have hrun := ht.run p (by rw [hp1]; simp)
    obtain ⟨s1, h1, as, -, r2, -⟩ := run_concat es .tick hr
    simp only [Downloader.step] at r2
    split at r2
    · simp only [Res.ok.injEq, Prod.mk.injEq] at r2
      rw [← r2.1] at h; simp at h
    · next hc =>
      simp only [Res.ok.injEq, Prod.mk.injEq] at r2
      rw [r2.1] at hc; exact hc hrun
  · exact Or.inr h

/-- C95 (partial as above): of a piece that did not pass a check since the start, that is of one that was there already, every peer is told as
soon as the handshake is done. -/
theorem C95_first_partial (sha : List UInt8 → List UInt8) (hashes : List (List UInt8)) (s0 s : St) (es : List Downloader.Ev)
    (h : History) (hf : Download.Fresh s0) (hk : KeptOk s0) (l : Pieces) (hl : Rel s0.files.progress l) (hlen : l.length ≤ 16777216)
    (hns : ∀ e ∈ es, isSelect e = false) (hr : Downloader.run sha hashes s0 es = .ok (s, h)) (p : Nat) (hp : Connected s p)
    (i : Nat) (hi : i < s.files.progress.pieces.length) (hh : hasPiece s.files.progress i = .ok true)
    (hn : ¬ Verified sha hashes s0 h i) : told h p i = true ∨ i ∈ s.checks.map (·.1) := by
  obtain ⟨ht, -⟩ := run_tells hf hk hl hlen _ hns hr
  obtain ⟨hI, hv⟩ := run_ver hf hk hl (by omega) _ hns hr
  obtain ⟨l', hl', -⟩ := hv.b.body
  have hi' : i < l'.length := by rw [← length_eq hl']; exact hi
  rw [hasPiece_eq hl' i hi'] at hh
  simp only [Res.ok.injEq] at hh
  rcases ht.know p hp i l' l'[i] hl' (by simp [hi']) hh with h | h | h
  · exact Or.inl h
  · exact absurd ((run_fresh hf hk es hr).2 i h) hn
  · exact Or.inr h

/-! Non-vacuity: peer 2 comes while piece 0 is there, peer 1 hears of it. -/
open DownloaderEx in
example : told (hist (asking ++ [recv 1 0 0, recv 1 0 1, .check 0 (some [1]), .connect 2, .handshake 2, .tick])) 1 0 = true ∧
    told (hist (asking ++ [recv 1 0 0, recv 1 0 1, .check 0 (some [1]), .connect 2, .handshake 2])) 2 0 = true ∧
    told (hist (asking ++ [recv 1 0 0, recv 1 0 1, .check 0 (some [1]), .connect 2, .handshake 2])) 1 0 = false := by
  decide +kernel

open DownloaderEx in
/-- C95 fails: a piece completed between deselection and the refresh of the requests counts as received, and a peer that is connected is never
told of it, however often the timer fires. -/
theorem C95_deselected_violated : ∃ es, ∀ n, ∃ h s, Downloader.run id DownloaderEx.hashes DownloaderEx.s0 (es ++ List.replicate n .tick) = .ok (s, h) ∧
    Connected s 1 ∧ hasPiece s.files.progress 0 = .ok true ∧ s.checks = [] ∧ told h 1 0 = false := by
  refine ⟨asking ++ [recv 1 0 0, .select 0 false, recv 1 0 1, .refresh [(1, 50)], .tick], ?_⟩
  generalize hes : (asking ++ [recv 1 0 0, .select 0 false, recv 1 0 1, .refresh [(1, 50)], .tick] : List Downloader.Ev) = es
  have hrun := ok (es := es) (by subst hes; decide +kernel)
  have htick : Downloader.step id DownloaderEx.hashes (state es) .tick = .ok (state es, []) := by subst hes; decide +kernel
  have hall : ∀ n, ∃ h, Downloader.run id DownloaderEx.hashes DownloaderEx.s0 (es ++ List.replicate n .tick) = .ok (state es, h) ∧
      told h 1 0 = false := by
    intro n
    induction n with
    | zero => exact ⟨hist es, by simpa using hrun, by subst hes; decide +kernel⟩
    | succ n ih =>
      obtain ⟨h, h1, h2⟩ := ih
      refine ⟨h ++ [(.tick, [])], ?_, by rw [told_append, h2]; rfl⟩
      rw [List.replicate_succ', ← List.append_assoc]
      exact run_more h1 htick
  intro n
  obtain ⟨h, h1, h2⟩ := hall n
  refine ⟨h, state es, h1, ?_, by subst hes; decide +kernel, by subst hes; decide +kernel, h2⟩
  refine ⟨((state es).peers.get 1).getD {}, by subst hes; decide +kernel, by subst hes; decide +kernel⟩

end Verif
