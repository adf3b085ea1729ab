import Verif.Lemmas.UU
/-!
# C04 — embedded data survives encode then decode
-/
namespace Verif.Props
open Verif Verif.UU

/-- **C04.** Decoding the encoder's output returns the data, for every byte string and file name. -/
theorem C04_uu_roundtrip (filename : List Char) (data : List Nat) (h : ∀ b ∈ data, b < 256) :
    decode (encode filename data) = data := by
  rw [encode, List.cons_append, decode_begin]
  have hf := chunks_flatten (n := 45) (by decide) data
  rw [decode_encodeLines _ (fun c hc => mem_chunks (by decide) hc)]
  · rw [hf, decode_tail, List.append_nil]
  · intro c hc b hb
    apply h
    rw [← hf]
    exact List.mem_flatten.2 ⟨c, hc, hb⟩

example : encode "f".toList [0, 255, 7, 1] = ["begin 644 f", "$ /\\' 0 ", "`", "end"].map (·.toList) := by
  decide
example : decode (encode "end".toList (List.replicate 46 200)) = List.replicate 46 200 := by decide

/-- **C04, further facts.** Encoded data lines consist of the characters with codes 32 to 95 only, so
they contain no line break and no lower-case letter. -/
theorem C04_encoded_line_charset (data : List Nat) (h : ∀ b ∈ data, b < 256) :
    ∀ c ∈ chunks 45 data, ∀ ch ∈ encodeLine c, 32 ≤ ch.toNat ∧ ch.toNat < 96 := by
  intro c hc ch hch
  have hl := mem_chunks (by decide) hc
  have hb : ∀ b ∈ c, b < 256 := by
    intro b hb
    apply h
    rw [← chunks_flatten (n := 45) (by decide) data]
    exact List.mem_flatten.2 ⟨c, hc, hb⟩
  rw [encodeLine, List.mem_cons] at hch
  rcases hch with rfl | hch
  · rw [ofNat_small (by omega)]; omega
  · obtain ⟨n, hn, rfl⟩ := List.mem_map.1 hch
    have := codes_range c hb n hn
    rw [ofNat_small (by omega)]; omega

example : ∀ ch ∈ encodeLine [1, 2, 3], 32 ≤ ch.toNat ∧ ch.toNat < 96 := by decide

end Verif.Props
