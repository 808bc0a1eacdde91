/-
C126: pictures of a stream of which a part has come.
-/
import Verif.Video.LiveLemmas
import Verif.Video.StreamProps
set_option linter.all false
namespace Mpeg.Video
open Spec
variable {stop : Err} {later : List (List Bool × Err)}

/-- **C126** (partial: the streams of C75) When `c` coded pictures of a stream and one start code behind them have come, `Next`
has returned all of them except a reference picture before which further B pictures are to be displayed (`Begun`); it does
not matter what follows the start code (`rest`, which may be empty or anything else), nor how the source goes on or ends
(`stop`, `later`). -/
theorem C126_partial {W H lead fuel k n c : Nat} {bits rest : List Bool} {imgs : List Image} (hk : 2 ≤ k) (hn : n < 256)
    (hns : n = 0 ∨ 0xB0 ≤ n) (h : Begun W H 0 none none (8 * lead) c bits imgs) (hf : bits.length < fuel) :
    ∃ frames t, nexts fuel k imgs.length (VS.new ⟨zeros (8 * lead) ++ (bits ++ (bitsOf 32 (0x100 + n) ++ rest)), 0, stop, later⟩) =
        (.ok frames, t) ∧
      frames.length = imgs.length ∧ (∀ i (h1 : i < frames.length) (h2 : i < imgs.length), Shows W H frames[i] imgs[i]) ∧
      c ≤ frames.length + 1 := by
  have hB : Between W H 0 none none none
      (VS.new ⟨zeros (8 * lead) ++ (bits ++ (bitsOf 32 (0x100 + n) ++ rest)), 0, stop, later⟩) :=
    ⟨rfl, ⟨rfl, fun r h => (by cases h), fun r h => (by cases h)⟩, rfl, .inl ⟨rfl, rfl⟩, fun Q hQ => (by cases hQ),
      fun _ => ⟨rfl, rfl⟩⟩
  have e7 : bitsOf 32 (0x100 + n) ++ rest = prefix1 ++ (bitsOf 8 n ++ rest) := by
    rw [code32_bits hn, List.append_assoc]
  obtain ⟨frames, t, h1, h2⟩ := begun_next (stop := stop) (later := later) (n := n) (rest := rest) (fuel := fuel)
    (k := k) hk hn (by omega) h (lead := lead) hB (fun h => absurd rfl h) (by omega) (Nat.le_refl _) hf
    (by rw [← e7]; simp only [VS.new, Nat.sub_self])
  exact ⟨frames, t, h1, h2.length, h2.get, by rw [h2.length]; exact (begun_delay h).2⟩

/-- **C126** (partial) A legal stream, cut behind any of its coded pictures: the pictures returned are the first ones of the
stream in display order, at most one fewer than have come. -/
theorem C126_stream_partial {W H lead : Nat} {gs : List CGroup} {bits : List Bool} {imgs : List Image}
    (h : GroupsCode W H 0 none none (8 * lead) gs bits imgs) (c : Nat) (hc : c ≤ codedPictures gs) :
    ∃ X Y shown, bits = X ++ Y ∧ Begun W H 0 none none (8 * lead) c X shown ∧ shown <+: imgs ∧
      shown.length ≤ c ∧ c ≤ shown.length + 1 ∧
      ∀ {fuel k n : Nat} {rest : List Bool} {stop : Err} {later : List (List Bool × Err)}, 2 ≤ k → n < 256 → (n = 0 ∨ 0xB0 ≤ n) →
        X.length < fuel →
        ∃ frames t, nexts fuel k shown.length (VS.new ⟨zeros (8 * lead) ++ (X ++ (bitsOf 32 (0x100 + n) ++ rest)), 0, stop, later⟩) =
            (.ok frames, t) ∧
          frames.length = shown.length ∧ ∀ i (h1 : i < frames.length) (h2 : i < imgs.length), Shows W H frames[i] imgs[i] := by
  obtain ⟨X, Y, shown, h1, h2, h3⟩ := groups_cut h c hc
  obtain ⟨h4, h5⟩ := begun_delay h3
  refine ⟨X, Y, shown, h1, h3, h2, h4, h5, ?_⟩
  intro fuel k n rest stop later hk hn hns hf
  obtain ⟨frames, t, e1, e2, e3, _⟩ := C126_partial (stop := stop) (later := later) (rest := rest) hk hn hns h3 hf
  refine ⟨frames, t, e1, e2, fun i hi1 hi2 => ?_⟩
  obtain ⟨u, rfl⟩ := h2
  have hi : i < shown.length := by omega
  rw [List.getElem_append_left hi]
  exact e3 i hi1 hi

/-- The stream I, P, B (coding order): when I and P have come, the first picture is returned and P is held back for B. -/
example : ∃ X shown, Begun 1 1 0 none none 8 2 X shown ∧ 1 ≤ shown.length ∧
    ∃ frames t, nexts (X.length + 1) 2 shown.length (VS.new ⟨zeros (8 * 1) ++ (X ++ (bitsOf 32 (0x100 + 0) ++ [true])), 0, .eof, []⟩) =
      (.ok frames, t) := by
  obtain ⟨bits, imgs, h, _⟩ := ExStream.stream
  obtain ⟨X, Y, shown, h1, h2, h3, h4, h5, h6⟩ := C126_stream_partial (lead := 1) h 2 (by decide)
  obtain ⟨frames, t, e, _⟩ := h6 (fuel := X.length + 1) (k := 2) (n := 0) (rest := [true]) (stop := .eof) (later := [])
    (by decide) (by decide) (.inl rfl) (Nat.lt_succ_self _)
  exact ⟨X, shown, h2, by omega, frames, t, e⟩

end Mpeg.Video
