import Verif.Model.Str

namespace Pyzim

@[simp] theorem decode_encode (s : String) : decode (encode s) = .ok s := by
  have h : ByteArray.mk (encode s).toArray = s.toByteArray := by simp [encode]
  unfold decode
  have hv : (ByteArray.mk (encode s).toArray).IsValidUTF8 := by rw [h]; exact s.isValidUTF8
  rw [dif_pos hv]
  congr 1

theorem encode_of_decode {b : Bytes} {s : String} (h : decode b = .ok s) : encode s = b := by
  unfold decode at h
  split at h
  · injection h with h; subst h; simp [encode]
  · cases h

theorem encode_injective {s t : String} (h : encode s = encode t) : s = t := by
  have := decode_encode s
  rw [h, decode_encode] at this
  injection this with this
  exact this.symm

theorem encode_append (s t : String) : encode (s ++ t) = encode s ++ encode t := by
  simp [encode]

theorem encode_ofList (l : List Char) : encode (String.ofList l) = l.flatMap String.utf8EncodeChar := by
  simp [encode, String.ofList, List.utf8Encode]

theorem encode_eq (s : String) : encode s = s.toList.flatMap String.utf8EncodeChar := by
  rw [← encode_ofList, String.ofList_toList]

@[simp] theorem encode_empty : encode "" = [] := by decide

theorem encode_eq_nil {s : String} : encode s = [] ↔ s = "" :=
  ⟨fun h => encode_injective (by rw [h, encode_empty]), fun h => by rw [h, encode_empty]⟩

theorem encode_length (s : String) : (encode s).length = (s.toList.map Char.utf8Size).sum := by
  rw [encode_eq, List.length_flatMap]
  simp

/-- A string encoding to one byte is a single character. -/
theorem encode_length_one {s : String} (h : (encode s).length = 1) :
    ∃ c : Char, s = String.singleton c ∧ c.utf8Size = 1 := by
  rw [encode_length] at h
  match hl : s.toList with
  | [] => rw [hl] at h; simp at h
  | [c] =>
    rw [hl] at h
    refine ⟨c, ?_, by simpa using h⟩
    rw [← String.ofList_toList (s := s), hl]
    rfl
  | c :: d :: rest =>
    rw [hl] at h
    have h1 := Char.utf8Size_pos c
    have h2 := Char.utf8Size_pos d
    simp at h
    omega

/-- Strings starting with one-byte parts: the parts determine each other. -/
theorem append_inj_of_one_byte {a b s t : String} (ha : (encode a).length = 1)
    (hb : (encode b).length = 1) (h : a ++ s = b ++ t) : a = b ∧ s = t := by
  have := congrArg encode h
  rw [encode_append, encode_append] at this
  obtain ⟨h1, h2⟩ := List.append_inj this (by rw [ha, hb])
  exact ⟨encode_injective h1, encode_injective h2⟩

end Pyzim
