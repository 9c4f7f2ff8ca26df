import Verif.Proof.Sha1
/-! C76: the hash that pieces, torrents and keys are checked with is SHA-1. -/

namespace Verif
open Sha1

theorem sha1_ok (d : List UInt8) : sha1 d = .ok (Spec.Sha1.hash d) := by
  obtain ⟨s, e, hs⟩ := stands_update (d.length + 1) [] d State.init stands_init (by omega)
  obtain ⟨r, e', hr⟩ := stands_final hs
  unfold sha1 update
  rw [e]
  simp only [Res.bind]
  rw [e']
  simp only [Res.bind, bytesOfWord_eq]
  rw [List.nil_append] at hr
  unfold Spec.Sha1.hash
  rw [← hr]
  rfl

/-- C76: for every message the function returns the 20 bytes of the standard; it never reads outside a buffer and ends. -/
theorem C76_sha1 (d : List UInt8) : sha1 d = .ok (Spec.Sha1.hash d) ∧ (Spec.Sha1.hash d).length = 20 :=
  ⟨sha1_ok d, rfl⟩

/-- A message handed over in parts has the same digest as the whole. -/
theorem C76_parts (parts : List (List UInt8)) :
    ∃ s r, parts.foldlM update State.init = .ok s ∧ final s = .ok r ∧
      bytesOfWord r.a ++ bytesOfWord r.b ++ bytesOfWord r.c ++ bytesOfWord r.d ++ bytesOfWord r.e = Spec.Sha1.hash parts.flatten := by
  have h : ∀ (ps : List (List UInt8)) (d : List UInt8) (s : State), Stands d s →
      ∃ s', ps.foldlM update s = .ok s' ∧ Stands (d ++ ps.flatten) s' := by
    intro ps
    induction ps with
    | nil => intro d s hs; exact ⟨s, rfl, by simpa using hs⟩
    | cons p ps ih =>
      intro d s hs
      obtain ⟨s1, e1, h1⟩ := stands_update (p.length + 1) d p s hs (by omega)
      obtain ⟨s2, e2, h2⟩ := ih _ _ h1
      refine ⟨s2, ?_, by simpa using h2⟩
      rw [List.foldlM_cons]
      show (updateLoop (p.length + 1) s p).bind _ = _
      rw [e1]
      exact e2
  obtain ⟨s, e, hs⟩ := h parts [] State.init stands_init
  obtain ⟨r, e', hr⟩ := stands_final hs
  refine ⟨s, r, e, e', ?_⟩
  simp only [bytesOfWord_eq]
  rw [List.nil_append] at hr
  unfold Spec.Sha1.hash
  rw [← hr]
  rfl

-- Known answers (tests, not proofs) of both the program and the standard as written down here: "abc", and a message whose padding
-- takes a second block (FIPS 180, examples 1 and 2).
example : Spec.Sha1.hash (ascii "abc") =
    [0xa9, 0x99, 0x3e, 0x36, 0x47, 0x06, 0x81, 0x6a, 0xba, 0x3e, 0x25, 0x71, 0x78, 0x50, 0xc2, 0x6c, 0x9c, 0xd0, 0xd8, 0x9d] := by
  have h : sha1 (ascii "abc") = .ok _ := (by decide +kernel : sha1 (ascii "abc") = .ok
    [0xa9, 0x99, 0x3e, 0x36, 0x47, 0x06, 0x81, 0x6a, 0xba, 0x3e, 0x25, 0x71, 0x78, 0x50, 0xc2, 0x6c, 0x9c, 0xd0, 0xd8, 0x9d])
  rw [sha1_ok] at h
  exact Res.ok.inj h

example : Spec.Sha1.hash (ascii "abcdbcdecdefdefgefghfghighijhijkijkljklmklmnlmnomnopnopq") =
    [0x84, 0x98, 0x3e, 0x44, 0x1c, 0x3b, 0xd2, 0x6e, 0xba, 0xae, 0x4a, 0xa1, 0xf9, 0x51, 0x29, 0xe5, 0xe5, 0x46, 0x70, 0xf1] := by
  have h : sha1 (ascii "abcdbcdecdefdefgefghfghighijhijkijkljklmklmnlmnomnopnopq") = .ok _ :=
    (by decide +kernel : sha1 (ascii "abcdbcdecdefdefgefghfghighijhijkijkljklmklmnlmnomnopnopq") = .ok
    [0x84, 0x98, 0x3e, 0x44, 0x1c, 0x3b, 0xd2, 0x6e, 0xba, 0xae, 0x4a, 0xa1, 0xf9, 0x51, 0x29, 0xe5, 0xe5, 0x46, 0x70, 0xf1])
  rw [sha1_ok] at h
  exact Res.ok.inj h

end Verif
