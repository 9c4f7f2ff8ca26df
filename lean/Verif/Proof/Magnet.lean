import Verif.Model.Magnet
import Verif.Spec.Magnet
import Verif.Proof.Base32

namespace Verif.Magnet
open Encoding Spec

theorem before_append (c : UInt8) (a b : List UInt8) (h : c ∉ a) : before c (a ++ c :: b) = a := by
  unfold before
  induction a with
  | nil => simp
  | cons x a ih =>
    have hx : x ≠ c := fun e => h (by simp [e])
    simp only [List.cons_append, List.takeWhile_cons, decide_eq_true (show x ≠ c from hx), if_true]
    rw [ih (fun e => h (by simp [e]))]

theorem after_append (c : UInt8) (a b : List UInt8) (h : c ∉ a) : after c (a ++ c :: b) = b := by
  unfold after
  induction a with
  | nil => simp
  | cons x a ih =>
    have hx : x ≠ c := fun e => h (by simp [e])
    simp only [List.cons_append, List.dropWhile_cons, decide_eq_true (show x ≠ c from hx), if_true]
    rw [ih (fun e => h (by simp [e]))]

theorem before_none (c : UInt8) (a : List UInt8) (h : c ∉ a) : before c a = a := by
  unfold before
  induction a with
  | nil => rfl
  | cons x a ih =>
    have hx : x ≠ c := fun e => h (by simp [e])
    rw [List.takeWhile_cons, if_pos (decide_eq_true hx), ih (fun e => h (by simp [e]))]

theorem after_none (c : UInt8) (a : List UInt8) (h : c ∉ a) : after c a = [] := by
  unfold after
  have : List.dropWhile (fun x => decide (x ≠ c)) a = [] := by
    induction a with
    | nil => rfl
    | cons x a ih =>
      have hx : x ≠ c := fun e => h (by simp [e])
      rw [List.dropWhile_cons, if_pos (decide_eq_true hx), ih (fun e => h (by simp [e]))]
  rw [this]; rfl

/-! ### Hash texts -/

theorem hexText_eq (bs : List UInt8) : (hexToString bs).map lower = hexText bs := by
  have tab : ∀ b : UInt8, ([hexChar (b >>> 4), hexChar (b &&& 0xf)]).map lower
      = [(ascii "0123456789abcdef").getD (b.toNat / 16) 0, (ascii "0123456789abcdef").getD (b.toNat % 16) 0] :=
    forall_u8 (by decide +kernel)
  unfold hexToString hexText
  rw [List.map_flatMap]
  congr 1
  funext b
  exact tab b

theorem hexText_length (bs : List UInt8) : (hexText bs).length = 2 * bs.length := by
  rw [← hexText_eq, List.length_map, hexToString_length]

theorem decodeHexa_hexText (s bs : List UInt8) (h : s.map lower = hexText bs) :
    decodeHexa s bs.length = .ok (some bs) := by
  have key : ∀ u : List UInt8, ∀ n, decodeHexa (u.map Spec.lower) n = decodeHexa u n := by
    intro u n
    unfold decodeHexa
    have : (u.map Spec.lower).all isHexa = u.all isHexa := by
      rw [List.all_map]; congr 1; funext c; exact isHexa_lower c
    rw [this]
    split
    · rename_i hu; rw [decodeHexaLoop_lower u hu]
    · rfl
  rw [← key s, h, ← hexText_eq, key]
  unfold decodeHexa
  rw [hexToString_all, if_pos rfl]
  have := decodeHexaLoop_append [] bs 0 rfl
  simp only [List.nil_append] at this
  rw [this]; rfl

theorem b32Group_length (bs : List UInt8) (h : bs.length ≤ 5) : (b32Group bs).length = (8 * bs.length + 4) / 5 := by
  unfold b32Group
  simp only [List.length_take, List.length_map, List.length_range]
  omega

theorem b32Encode_length20 (bs : List UInt8) (h : bs.length = 20) : (b32Encode bs).length = 32 := by
  match bs, h with
  | [a0,a1,a2,a3,a4,a5,a6,a7,a8,a9,b0,b1,b2,b3,b4,b5,b6,b7,b8,b9], _ =>
    simp only [b32Encode, List.take_succ_cons, List.take_zero, List.drop_succ_cons, List.drop_zero, List.length_append]
    rw [b32Group_length _ (by simp), b32Group_length _ (by simp), b32Group_length _ (by simp), b32Group_length _ (by simp)]
    simp

theorem b32_text (s bs : List UInt8) (h : s.map lower = (b32Encode bs).map lower) : base32decode s = bs := by
  unfold base32decode
  rw [← decodeAux_lower s, h, decodeAux_lower]
  have := decode_encode bs 0 (Or.inl rfl)
  simp only [List.replicate_zero, List.append_nil] at this
  rw [this]

theorem HashText.len {h s : List UInt8} (ht : HashText h s) : s.length = 40 ∨ s.length = 32 := by
  cases ht with
  | hex hl hs =>
    left
    have := congrArg List.length hs
    rw [List.length_map, hexText_length] at this
    omega
  | b32 hl hs =>
    right
    have := congrArg List.length hs
    rw [List.length_map, List.length_map, b32Encode_length20 h hl] at this
    omega

theorem parseTorrentHash_hex (s h : List UInt8) (hl : h.length = 20) (hs : s.map lower = hexText h) :
    parseTorrentHash s = .ok (some h) := by
  have h40 : s.length = 40 := by
    have := congrArg List.length hs
    rw [List.length_map, hexText_length] at this
    omega
  unfold parseTorrentHash
  rw [if_neg (by omega)]
  have h44 : ¬ s.length = 44 := by omega
  simp only [if_neg h44]
  rw [if_pos h40]
  have := decodeHexa_hexText s h hs
  rw [hl] at this
  exact this

theorem HashText.parse {h s : List UInt8} (ht : HashText h s) : parseTorrentHash s = .ok (some h) := by
  cases ht with
  | hex hl hs => exact parseTorrentHash_hex s h hl hs
  | b32 hl hs =>
    have h32 : s.length = 32 := by
      have := congrArg List.length hs
      rw [List.length_map, List.length_map, b32Encode_length20 h hl] at this
      omega
    unfold parseTorrentHash
    rw [if_pos ⟨h32, by rw [b32_text s h hs]; exact hl⟩, b32_text s h hs]

theorem lower_amp : ∀ c : UInt8, lower c = lower (chr '&') → c = chr '&' := forall_u8 (by decide +kernel)

theorem b32_no_amp (bs : List UInt8) : ∀ c ∈ b32Encode bs, c ∈ 0 :: b32Alpha := by
  have key : ∀ n, ∀ bs : List UInt8, bs.length ≤ n → ∀ c ∈ b32Encode bs, c ∈ 0 :: b32Alpha := by
    intro n
    induction n with
    | zero => intro bs hb; have : bs = [] := List.eq_nil_of_length_eq_zero (by omega); subst this; simp [b32Encode]
    | succ n ih =>
      intro bs hb c hc
      cases bs with
      | nil => simp [b32Encode] at hc
      | cons b bs =>
        rw [b32Encode, List.mem_append] at hc
        rcases hc with hc | hc
        · unfold b32Group at hc
          have := List.mem_of_mem_take hc
          rw [List.mem_map] at this
          obtain ⟨k, _, e⟩ := this
          rw [← e, List.getD_eq_getElem?_getD]
          generalize beVal _ / 32 ^ (7 - k) % 32 = i
          cases hi : b32Alpha[i]? with
          | none => simp
          | some x => simp only [Option.getD_some]; exact List.mem_cons_of_mem _ (List.mem_of_getElem? hi)
        · exact ih _ (by simp only [List.length_drop, List.length_cons] at hb ⊢; omega) c hc
  exact key _ bs (Nat.le_refl _)

theorem HashText.no_amp {h s : List UInt8} (ht : HashText h s) : chr '&' ∉ s := by
  intro hm
  have hm' := List.mem_map_of_mem (f := lower) hm
  cases ht with
  | hex hl hs =>
    rw [hs] at hm'
    unfold hexText at hm'
    rw [List.mem_flatMap] at hm'
    obtain ⟨b, _, hb⟩ := hm'
    have tab : ∀ b : UInt8, lower (chr '&') ∉ [(ascii "0123456789abcdef").getD (b.toNat / 16) 0, (ascii "0123456789abcdef").getD (b.toNat % 16) 0] :=
      forall_u8 (by decide +kernel)
    exact tab b hb
  | b32 hl hs =>
    rw [hs, List.mem_map] at hm'
    obtain ⟨c, hc, e⟩ := hm'
    have := lower_amp c e
    subst this
    exact absurd (b32_no_amp h _ hc) (by decide)

/-- A link with a character outside both alphabets is no bare hash. -/
theorem parseTorrentHash_colon (s : List UInt8) (h : chr ':' ∈ s) : parseTorrentHash s = .ok none := by
  have hb : base32decode s = [] := by
    have rdn : ∀ (l : List UInt8) j pad, chr ':' ∈ l → b32Read l j pad = none := by
      intro l
      induction l with
      | nil => intro j pad hm; simp at hm
      | cons c l ih =>
        intro j pad hm
        rw [b32Read]
        rcases List.mem_cons.mp hm with e | e
        · subst e
          have : b32Char (chr ':') = none := by decide
          rw [this]
        · cases b32Char c with
          | none => rfl
          | some v =>
            cases v with
            | none => simp [ih _ _ e]
            | some v => simp [ih _ _ e]
    have key : ∀ n, ∀ s : List UInt8, s.length ≤ n → chr ':' ∈ s → base32decodeAux s = none := by
      intro n
      induction n with
      | zero => intro s hs hm; have : s = [] := List.eq_nil_of_length_eq_zero (by omega); subst this; simp at hm
      | succ n ih =>
        intro s hs hm
        cases s with
        | nil => simp at hm
        | cons c s =>
          rw [base32decodeAux]
          rw [← List.take_append_drop 8 (c :: s), List.mem_append] at hm
          rcases hm with hm | hm
          · rw [rdn _ _ _ hm]
          · rw [ih _ (by simp only [List.length_drop, List.length_cons] at hs ⊢; omega) hm]
            cases b32Read (List.take 8 (c :: s)) 0 _ <;> rfl
    unfold base32decode
    rw [key _ s (Nat.le_refl _) h]
  have hf : chr ':' ∈ s.filter (fun c => !isSpace c) := by
    rw [List.mem_filter]; exact ⟨h, by decide⟩
  have hx : ∀ t : List UInt8, chr ':' ∈ t → decodeHexa t 20 = .ok none := by
    intro t ht
    unfold decodeHexa
    rw [if_neg]
    intro ha
    rw [List.all_eq_true] at ha
    exact absurd (ha _ ht) (by decide)
  unfold parseTorrentHash
  rw [if_neg (by rw [hb]; simp)]
  simp only
  split
  · split
    · exact hx _ hf
    · rfl
  · split
    · exact hx _ h
    · rfl

theorem parseTorrentHash_length (s : List UInt8) (h1 : s.length ≠ 32) (h2 : s.length ≠ 40) (h3 : s.length ≠ 44) :
    parseTorrentHash s = .ok none := by
  unfold parseTorrentHash
  rw [if_neg (fun h => h1 h.1)]
  simp only [if_neg h3, if_neg h2]

/-! ### The loop -/

/-- The effect of one parameter. -/
def step (m : Meta × Bool) : Param → Meta × Bool
  | .hash _ h => ({ m.1 with hash := h }, true)
  | .badHash _ => (m.1, false)
  | .name _ v => ({ m.1 with name := v }, m.2)
  | .tracker _ v => ({ m.1 with
      announce := if m.1.announceList.isEmpty then v else m.1.announce
      announceList := m.1.announceList ++ [v] }, m.2)
  | .other _ _ => m
  | .junk _ => m

theorem Param.no_amp {p : Param} (h : p.Good) : chr '&' ∉ p.text := by
  cases p with
  | hash t v =>
    simp only [Param.text, List.mem_append, not_or]
    exact ⟨by decide, HashText.no_amp h⟩
  | badHash t =>
    simp only [Param.text, List.mem_append, not_or]
    exact ⟨by decide, h.2.1⟩
  | name t v => simp only [Param.text, List.mem_append, not_or]; exact ⟨by decide, h.2⟩
  | tracker t v => simp only [Param.text, List.mem_append, not_or]; exact ⟨by decide, h.2⟩
  | other k t =>
    obtain ⟨_, _, _, _, h1, h2⟩ := h
    simp only [Param.text, List.mem_append, List.mem_cons, not_or]
    exact ⟨h1, by decide, h2⟩
  | junk t => exact h.2

theorem elem_param (p : Param) (h : p.Good) (m : Meta) (c : Bool) : elem m c p.text = .ok (step (m, c) p) := by
  unfold elem
  cases p with
  | hash t v =>
    have e : (Param.hash t v).text = ascii "xt" ++ chr '=' :: (ascii "urn:btih:" ++ t) := by
      show ascii "xt=urn:btih:" ++ t = _
      rw [show ascii "xt=urn:btih:" = ascii "xt" ++ chr '=' :: ascii "urn:btih:" by decide]; simp
    rw [e, if_pos (by simp), before_append _ _ _ (by decide), after_append _ _ _ (by decide)]
    unfold param
    have hl := HashText.len h
    have h9 : (ascii "urn:btih:").length = 9 := by decide
    rw [if_pos ⟨rfl, by rw [List.length_append]; omega, by rw [← h9, List.take_left']; rfl⟩]
    rw [show (ascii "urn:btih:" ++ t).drop 9 = t by rw [← h9, List.drop_left'] ; rfl, HashText.parse h]
    rfl
  | badHash t =>
    have e : (Param.badHash t).text = ascii "xt" ++ chr '=' :: (ascii "urn:btih:" ++ t) := by
      show ascii "xt=urn:btih:" ++ t = _
      rw [show ascii "xt=urn:btih:" = ascii "xt" ++ chr '=' :: ascii "urn:btih:" by decide]; simp
    rw [e, if_pos (by simp), before_append _ _ _ (by decide), after_append _ _ _ (by decide)]
    unfold param
    have hl : 0 < t.length := List.length_pos_iff.mpr h.1
    have h9 : (ascii "urn:btih:").length = 9 := by decide
    have hp : parseTorrentHash t = .ok none := by
      rcases h.2.2 with hh | hh
      · exact parseTorrentHash_length t hh.1 hh.2.1 hh.2.2
      · exact parseTorrentHash_colon t hh
    rw [if_pos ⟨rfl, by rw [List.length_append]; omega, by rw [← h9, List.take_left']; rfl⟩]
    rw [show (ascii "urn:btih:" ++ t).drop 9 = t by rw [← h9, List.drop_left'] ; rfl, hp]
    rfl
  | name t v =>
    have e : (Param.name t v).text = ascii "dn" ++ chr '=' :: t := by
      show ascii "dn=" ++ t = _
      rw [show ascii "dn=" = ascii "dn" ++ [chr '='] by decide]; simp
    rw [e, if_pos (by simp), before_append _ _ _ (by decide), after_append _ _ _ (by decide)]
    unfold param
    rw [if_neg (fun hh => absurd hh.1 (by decide)), if_neg (by decide), if_pos rfl, url_decode_means t v h.1]
    rfl
  | tracker t v =>
    have e : (Param.tracker t v).text = ascii "tr" ++ chr '=' :: t := by
      show ascii "tr=" ++ t = _
      rw [show ascii "tr=" = ascii "tr" ++ [chr '='] by decide]; simp
    rw [e, if_pos (by simp), before_append _ _ _ (by decide), after_append _ _ _ (by decide)]
    unfold param
    rw [if_neg (fun hh => absurd hh.1 (by decide)), if_pos rfl, url_decode_means t v h.1]
    rfl
  | other k t =>
    obtain ⟨h1, h2, h3, h4, h5, h6⟩ := h
    show (if chr '=' ∈ k ++ chr '=' :: t then _ else _) = _
    rw [if_pos (by simp)]
    show param m c (before _ (k ++ chr '=' :: t)) (after _ (k ++ chr '=' :: t)) = _
    rw [before_append _ _ _ h4, after_append _ _ _ h4]
    unfold param
    rw [if_neg (fun hh => h1 hh.1), if_neg h3, if_neg h2]
    rfl
  | junk t =>
    show (if chr '=' ∈ t then _ else _) = _
    rw [if_neg h.1]; rfl

theorem loop_cons (m : Meta) (c : Bool) (s : List UInt8) (h : s ≠ []) : loop m c s
    = (do let r ← elem m c (before (chr '&') s); loop r.1 r.2 (after (chr '&') s)) := by
  cases s with
  | nil => exact absurd rfl h
  | cons a s => rw [loop]

theorem loop_params (ps : List Param) (hg : ∀ p ∈ ps, p.Good) (m : Meta) (c : Bool) :
    loop m c (List.intercalate [chr '&'] (ps.map Param.text)) = .ok (ps.foldl step (m, c)) := by
  induction ps generalizing m c with
  | nil => simp [List.intercalate, loop]
  | cons p ps ih =>
    have hp := hg p (by simp)
    have na := Param.no_amp hp
    cases ps with
    | nil =>
      have e : List.intercalate [chr '&'] ([p].map Param.text) = p.text := by simp [List.intercalate]
      rw [e]
      have e1 := elem_param p hp m c
      by_cases h0 : p.text = []
      · rw [h0, loop]
        rw [h0] at e1
        simpa [elem] using e1
      · rw [loop_cons _ _ _ h0, before_none _ _ na, after_none _ _ na, e1, Res.bind_ok, loop]
        rfl
    | cons q qs =>
      have e : List.intercalate [chr '&'] ((p :: q :: qs).map Param.text)
          = p.text ++ chr '&' :: List.intercalate [chr '&'] ((q :: qs).map Param.text) := by
        simp [List.intercalate, List.intersperse]
      rw [e, loop_cons _ _ _ (by simp), before_append _ _ _ na, after_append _ _ _ na, elem_param p hp m c, Res.bind_ok]
      rw [ih (fun x hx => hg x (by simp [hx]))]
      rfl

theorem fold_hash (ps : List Param) (m : Meta × Bool) :
    (∀ h, (hashes ps).getLast? = some (some h) → (ps.foldl step m).1.hash = h)
    ∧ (hashes ps = [] → (ps.foldl step m).1.hash = m.1.hash)
    ∧ (ps.foldl step m).2 = ((hashes ps).getLast?.map Option.isSome).getD m.2
    ∧ (ps.foldl step m).1.name = (names ps).getLast?.getD m.1.name
    ∧ (ps.foldl step m).1.announceList = m.1.announceList ++ trackers ps
    ∧ (m.1.announceList = [] → (ps.foldl step m).1.announce = (trackers ps).head?.getD m.1.announce)
    ∧ (m.1.announceList ≠ [] → (ps.foldl step m).1.announce = m.1.announce) := by
  induction ps generalizing m with
  | nil => simp [hashes, names, trackers]
  | cons p ps ih =>
    obtain ⟨a1, a0, a2, a3, a4, a5, a6⟩ := ih (step m p)
    rw [List.foldl_cons]
    cases p with
    | hash t h =>
      have eh : hashes (Param.hash t h :: ps) = some h :: hashes ps := rfl
      refine ⟨?_, ?_, ?_, a3, a4, a5, a6⟩
      · intro h' hh
        rw [eh, List.getLast?_cons] at hh
        by_cases hn : hashes ps = []
        · rw [a0 hn]; rw [hn] at hh; simpa [step] using hh
        · apply a1
          rw [List.getLast?_eq_some_getLast hn] at hh ⊢
          simpa using hh
      · rw [eh]; simp
      · rw [a2, eh, List.getLast?_cons]
        cases (hashes ps).getLast? <;> simp [step]
    | badHash t =>
      have eh : hashes (Param.badHash t :: ps) = none :: hashes ps := rfl
      refine ⟨?_, ?_, ?_, a3, a4, a5, a6⟩
      · intro h' hh
        rw [eh, List.getLast?_cons] at hh
        by_cases hn : hashes ps = []
        · rw [hn] at hh; simp at hh
        · apply a1
          rw [List.getLast?_eq_some_getLast hn] at hh ⊢
          simpa using hh
      · rw [eh]; simp
      · rw [a2, eh, List.getLast?_cons]
        cases (hashes ps).getLast? <;> simp [step]
    | name t v =>
      have eh : names (Param.name t v :: ps) = v :: names ps := rfl
      refine ⟨a1, a0, a2, ?_, a4, a5, a6⟩
      rw [a3, eh, List.getLast?_cons]; simp [step]
    | tracker t v =>
      have eh : trackers (Param.tracker t v :: ps) = v :: trackers ps := rfl
      refine ⟨a1, a0, a2, a3, ?_, ?_, ?_⟩
      · rw [a4, eh]; simp [step]
      · intro he
        rw [a6 (by simp [step]), eh]
        simp [step, he]
      · intro he
        rw [a6 (by simp [step])]
        simp [step, he]
    | other k t => exact ⟨a1, a0, a2, a3, a4, a5, a6⟩
    | junk t => exact ⟨a1, a0, a2, a3, a4, a5, a6⟩

end Verif.Magnet
