import Verif.Model.Incoming
import Verif.Props.Encryption
/-! C84: peers that connect are handed to the torrent they name. -/

namespace Verif
open Incoming

variable {H : Type}

/-- The handshake with which connections begin: 68 bytes, of which these are the name of the protocol. -/
def incomingPlain (data : List UInt8) : Prop := 68 ≤ data.length ∧ data.take 20 = 19 :: ascii "BitTorrent protocol"

theorem incoming_done (policy : PeerStream.Policy) (m : Machine H) (runs : List UInt8 → Bool) (junk : List UInt8) (take : List UInt8 → Nat) (conn : Conn H)
    (hc : conn = .closed ∨ ∃ a b c e, conn = .handed a b c e) (cs : List (List UInt8)) : arriveAll policy m runs junk take conn cs = (conn, []) := by
  induction cs with
  | nil => rfl
  | cons c cs ih =>
    unfold arriveAll
    have : arrives policy m runs junk take conn c = (conn, []) := by
      rcases hc with rfl | ⟨a, b, d, e, rfl⟩ <;> rfl
    rw [this]
    simp only [ih, List.append_nil]

theorem incoming_plain (policy : PeerStream.Policy) (m : Machine H) (runs : List UInt8 → Bool) (junk : List UInt8) (take : List UInt8 → Nat) :
    ∀ (cs : List (List UInt8)) (buffer : List UInt8), buffer.length < 20 → incomingPlain (buffer ++ cs.flatten) →
      (∀ i ≤ cs.length, (buffer ++ (cs.take i).flatten).length < 20 ∨ 68 ≤ (buffer ++ (cs.take i).flatten).length) →
      ∃ i ≤ cs.length, 68 ≤ (buffer ++ (cs.take i).flatten).length ∧ (∀ j < i, (buffer ++ (cs.take j).flatten).length < 20) ∧
        arriveAll policy m runs junk take (.waiting none buffer) cs = (readPlain runs junk take none (buffer ++ (cs.take i).flatten), [])
  | [], buffer, hb, hp, _ => by
    have := hp.1
    simp only [List.flatten_nil, List.append_nil] at this
    omega
  | c :: cs, buffer, hb, hp, hcut => by
    have hc1 := hcut 1 (by simp)
    simp only [List.take_succ_cons, List.take_zero, List.flatten_cons, List.flatten_nil, List.append_nil] at hc1
    unfold arriveAll arrives
    by_cases hl : (buffer ++ c).length < 20
    · simp only [if_pos hl]
      obtain ⟨i, hi, h1, h2, h3⟩ := incoming_plain policy m runs junk take cs (buffer ++ c) hl (by simpa [incomingPlain, List.append_assoc] using hp) (by
        intro i hi
        have := hcut (i + 1) (by simp; omega)
        simpa [List.append_assoc] using this)
      refine ⟨i + 1, by simp; omega, by simpa [List.append_assoc] using h1, ?_, ?_⟩
      · intro j hj
        cases j with
        | zero => simpa using hb
        | succ j => have := h2 j (by omega); simpa [List.append_assoc] using this
      · rw [h3]
        simp [List.append_assoc]
    · have h68 : 68 ≤ (buffer ++ c).length := by omega
      have hst : startsAsHandshake (buffer ++ c) = true := by
        unfold startsAsHandshake
        have : (buffer ++ c).take 20 = (buffer ++ (c :: cs).flatten).take 20 := by
          rw [List.flatten_cons, ← List.append_assoc, List.take_append_of_le_length (l₁ := buffer ++ c) (by omega)]
        rw [this, hp.2, beq_self_eq_true]
      simp only [if_neg hl, hst, if_true]
      refine ⟨1, by simp, by simpa using h68, ?_, ?_⟩
      · intro j hj
        have : j = 0 := by omega
        subst this
        simpa using hb
      · rw [incoming_done]
        · simp
        · unfold readPlain
          repeat' split
          · exact .inl rfl
          · exact .inr ⟨_, _, _, _, rfl⟩
          · exact .inl rfl

/-- C84, plain: a peer that names a torrent that runs is handed to it with all it has sent until then, and a peer that names another one is
disconnected, however its handshake is cut. Missing: cuts behind the 20th and in front of the 68th byte, see below. -/
theorem C84_plain_partial (policy : PeerStream.Policy) (m : Machine H) (runs : List UInt8 → Bool) (junk : List UInt8) (take : List UInt8 → Nat) (ht : ∀ l, incomingPlain l → 0 < take l)
    (cs : List (List UInt8)) (hp : incomingPlain cs.flatten) (hcut : ∀ i ≤ cs.length, (cs.take i).flatten.length < 20 ∨ 68 ≤ (cs.take i).flatten.length) :
    ∃ i ≤ cs.length, (∀ j < i, (cs.take j).flatten.length < 20) ∧
      arriveAll policy m runs junk take (.waiting none []) cs =
        (if runs ((cs.flatten.drop 28).take 20) then
          .handed ((cs.flatten.drop 28).take 20) (cs.take i).flatten ((cs.take i).flatten.drop (take (cs.take i).flatten)) false
         else .closed, []) := by
  obtain ⟨i, hi, h1, h2, h3⟩ := incoming_plain policy m runs junk take cs [] (by decide) (by simpa using hp) (by simpa using hcut)
  simp only [List.nil_append] at h1 h2 h3
  refine ⟨i, hi, h2, ?_⟩
  have hsplit : cs.flatten = (cs.take i).flatten ++ (cs.drop i).flatten := by
    rw [← List.flatten_append, List.take_append_drop]
  have hn : named (cs.take i).flatten junk = (cs.flatten.drop 28).take 20 := by
    unfold named
    rw [if_pos h1, hsplit, List.drop_append_of_le_length (by omega), List.take_append_of_le_length (by rw [List.length_drop]; omega)]
  have hpl : incomingPlain (cs.take i).flatten := by
    refine ⟨h1, ?_⟩
    have := hp.2
    rw [hsplit, List.take_append_of_le_length (by omega)] at this
    exact this
  rw [h3]
  unfold readPlain
  rw [hn]
  have h0 := ht _ hpl
  simp only [if_neg (Nat.pos_iff_ne_zero.1 h0), Option.isSome_none]

/-- C84, encrypted: when the handshake is over, the connection is handed to the torrent it named, with the message that was in it; when it
failed, the connection is closed; the answers are sent. Missing: torrents that do not run, and messages that are not complete, see below. -/
theorem C84_encrypted_partial (policy : PeerStream.Policy) (m : Machine H) (runs : List UInt8 → Bool) (junk : List UInt8) (take : List UInt8 → Nat) (h : Option H) (buffer chunk : List UInt8)
    (hl : 20 ≤ (buffer ++ chunk).length) (hs : (buffer ++ chunk).take 20 ≠ 19 :: ascii "BitTorrent protocol") (n : Nat) (answer : List UInt8) (h' : H)
    (hr : m.read (h.getD m.fresh) (buffer ++ chunk) = (n, answer, h')) :
    (arrives policy m runs junk take (.waiting h buffer) chunk).2 = answer ∧
    (m.established h' = true → runs (m.hash h') = true →
      (arrives policy m runs junk take (.waiting h buffer) chunk).1 = .handed (m.hash h') (m.message h') ((buffer ++ chunk).drop n) true) ∧
    (m.established h' = false → m.failed h' = true → (arrives policy m runs junk take (.waiting h buffer) chunk).1 = .closed) ∧
    (m.established h' = false → m.failed h' = false →
      (arrives policy m runs junk take (.waiting h buffer) chunk).1 = .waiting (some h') ((buffer ++ chunk).drop n)) := by
  have hst : startsAsHandshake (buffer ++ chunk) = false := by
    unfold startsAsHandshake
    exact beq_false_of_ne hs
  unfold arrives
  simp only [if_neg (Nat.not_lt.2 hl), hst, Bool.false_eq_true, if_false]
  unfold readEncrypted
  rw [hr]
  refine ⟨rfl, fun h1 h2 => ?_, fun h1 h2 => ?_, fun h1 h2 => ?_⟩
  · simp only [h1, h2, if_true]
  · simp only [h1, h2, if_true, Bool.false_eq_true, if_false]
  · simp only [h1, h2, Bool.false_eq_true, if_false]

/-- C84, encrypted: what is sent is all that the handshake answers, in the order of what arrives: the answers to the beginning and then those to
the rest. -/
theorem C84_answers_partial (policy : PeerStream.Policy) (m : Machine H) (runs : List UInt8 → Bool) (junk : List UInt8) (take : List UInt8 → Nat) (conn : Conn H) (cs cs' : List (List UInt8)) :
    (arriveAll policy m runs junk take conn (cs ++ cs')).2 =
      (arriveAll policy m runs junk take conn cs).2 ++ (arriveAll policy m runs junk take (arriveAll policy m runs junk take conn cs).1 cs').2 := by
  induction cs generalizing conn with
  | nil => simp [arriveAll]
  | cons c cs ih =>
    simp only [List.cons_append, arriveAll, ih, List.append_assoc]

/-- C84, encrypted: the handshake uses all that has arrived when it is over, so nothing that is encrypted is left in front of what is decrypted
next. -/
theorem C84_whole_partial {h h' : Pe.Handshake} {l : Pe.Listener} {data pad out : List UInt8} {n : Nat} (hs : h.step ≠ .established)
    (e : Pe.readAsListener h l data pad = .ok (n, out, h')) (he : h'.step = .established) : n = data.length := by
  unfold Pe.readAsListener at e
  split at e
  · split at e
    · cases e; exact absurd he hs
    · obtain ⟨q, _, e⟩ := mse_bind e
      obtain ⟨q, _, e⟩ := mse_bind e
      cases e; rfl
  · rename_i hst
    obtain ⟨⟨r, h1⟩, e1, e⟩ := mse_bind e
    have key : h1.step = .established → r = data.length := by
      intro h1e
      unfold Pe.readPe3 at e1
      split at e1
      · cases e1; exact absurd h1e hs
      · obtain ⟨q, _, e1⟩ := mse_bind e1
        split at e1
        · cases e1; exact absurd h1e hs
        · unfold Pe.readPe3At at e1
          obtain ⟨q, _, e1⟩ := mse_bind e1
          split at e1
          · cases e1; rfl
          · obtain ⟨c, _, e1⟩ := mse_bind e1
            simp only [Res.ok.injEq] at e1
            unfold Pe.readPe3Encrypted at e1
            dsimp only at e1
            split at e1
            · cases e1; rfl
            · split at e1
              · cases e1; rfl
              · split at e1
                · cases e1; exact absurd h1e hs
                · unfold Pe.readPe3Message at e1
                  dsimp only at e1
                  split at e1
                  · cases e1; exact absurd h1e hs
                  · cases e1; rfl
    dsimp only at e
    split at e
    · rename_i hne
      cases e
      exact absurd he hne
    · rename_i hne
      have hne := Decidable.not_not.1 hne
      split at e
      · cases e
      · cases e
        exact key hne
  · cases e; exact absurd he hs

namespace IncomingEx

/-- A handshake for examples: over at once; the torrent it names has the hash 2, and the message in it is the first 30 bytes of a handshake. -/
def toy : Machine Bool where
  fresh := false
  read := fun _ l => (l.length, [1], true)
  failed := fun _ => false
  established := fun h => h
  hash := fun _ => [2]
  message := fun _ => (19 :: ascii "BitTorrent protocol") ++ List.replicate 10 0

def theHandshake : List UInt8 := (19 :: ascii "BitTorrent protocol") ++ List.replicate 8 0 ++ List.replicate 20 7 ++ List.replicate 20 9

end IncomingEx
open IncomingEx

example : incomingPlain theHandshake := ⟨by decide +kernel, by decide +kernel⟩

example : arriveAll .allow toy (fun h => h == List.replicate 20 7) [] (fun l => min l.length 68) (.waiting none []) [theHandshake.take 5, theHandshake.drop 5 ++ [0]] =
    (.handed (List.replicate 20 7) (theHandshake ++ [0]) [0] false, []) := by decide +kernel

/-- A handshake that answers everything with one byte, and is over with the third message. -/
def IncomingEx.slow : Machine Nat where
  fresh := 0
  read := fun h l => (l.length, [UInt8.ofNat h], h + 1)
  failed := fun _ => false
  established := fun h => h == 3
  hash := fun _ => [2]
  message := fun _ => []

example : (arriveAll .allow IncomingEx.slow (fun _ => true) [] (fun l => l.length) (.waiting none [])
    [List.replicate 96 0, List.replicate 30 0, List.replicate 30 0]).2 = [0, 1, 2] := by decide +kernel

/-- C84 fails: a plain handshake that arrives in two pieces, the first one of 20 to 67 bytes, is refused, if what was never set is not the hash of a
torrent by chance. -/
theorem C84_cut_violated (k : Nat) (hk : 20 ≤ k ∧ k < 68) (runs : List UInt8 → Bool) (junk : List UInt8) (hj : runs junk = false) (take : List UInt8 → Nat) :
    arriveAll .allow toy runs junk take (.waiting none []) [theHandshake.take k, theHandshake.drop k] = (.closed, []) := by
  have hl : (theHandshake.take k).length = k := by
    rw [List.length_take, show theHandshake.length = 68 by decide +kernel]; omega
  have hst : startsAsHandshake (theHandshake.take k) = true := by
    unfold startsAsHandshake
    rw [List.take_take, Nat.min_eq_left hk.1]
    decide +kernel
  have h1 : arrives .allow toy runs junk take (.waiting none []) (theHandshake.take k) = (.closed, []) := by
    unfold arrives
    simp only [List.nil_append, hl, if_neg (Nat.not_lt.2 hk.1), hst, if_true]
    unfold readPlain named
    have h68 : ¬ 68 ≤ (theHandshake.take k).length := by omega
    simp only [if_neg h68, hj, Bool.false_eq_true, if_false]
  unfold arriveAll
  rw [h1]
  rfl

/-- C84 fails: an encrypted connection for a torrent that does not run is neither handed on nor closed; all that arrives is kept, whatever it is
(unless it starts like a handshake). -/
theorem C84_kept_violated (runs : List UInt8 → Bool) (hr : runs [2] = false) (junk chunk : List UInt8) (take : List UInt8 → Nat)
    (hc : chunk.take 20 ≠ 19 :: ascii "BitTorrent protocol") :
    (arriveAll .allow toy runs junk take (.waiting none []) [List.replicate 96 0, chunk]).1 = .left chunk := by
  have h1 : arrives .allow toy runs junk take (.waiting none []) (List.replicate 96 0) = (.left [], [1]) := by
    show (if runs [2] = true then _ else _, _) = _
    rw [hr]
    rfl
  have hst : startsAsHandshake chunk = false := by
    unfold startsAsHandshake
    exact beq_false_of_ne hc
  unfold arriveAll
  rw [h1]
  unfold arriveAll arrives
  simp only [List.nil_append, hst, Bool.false_eq_true, if_false, ite_self]
  rfl

/-- C84 fails: what the torrent's end of the connection does not use of the message in the handshake, here the first 30 bytes of 68, is lost. -/
theorem C84_message_violated : (arrives .allow toy (fun _ => true) [] (fun l => if l.length < 68 then 0 else 68) (.waiting none []) (List.replicate 96 0)).1 =
    .handed [2] (theHandshake.take 28 ++ [0, 0]) [] true := by decide +kernel

/-- C84 fails: peers that connect without encryption are served although it is required, and encrypted ones although it is refused. -/
theorem C84_policy_violated :
    (arrives .require toy (fun _ => true) [] (fun _ => 68) (.waiting none []) theHandshake).1 = .handed (List.replicate 20 7) theHandshake [] false ∧
    (arrives .refuse toy (fun _ => true) [] (fun _ => 68) (.waiting none []) (List.replicate 96 0)).1 = .handed [2] (theHandshake.take 28 ++ [0, 0]) [] true := by decide +kernel

end Verif
