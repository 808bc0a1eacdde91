/-
C146: the condition on `f_code` is necessary.
-/
import Verif.Video.CleanProps
set_option linter.all false
namespace Mpeg.Video
open Spec SynEx CleanEx

namespace FCodeEx

/-! ### an I picture with concealment vectors and `f_code` 13 -/

def pceC : PictureCodingExtension :=
  ⟨13, 1, 15, 15, 0, 3, false, 1, true, 0, 0, 0, false, true, true, false, false, 0, false, 0, 0⟩
def eC : PicEnv := { e 1 with pce := pceC }
/-- motion_code with five zeros at its end, residual 0, and motion_code with six zeros at its beginning -/
def vecs : List Bool := [] ++ (((bitsOf 11 0x20 ++ zeros 12) ++ ([] ++ ((bitsOf 11 0x1B ++ []) ++ []))) ++ [])
/-- a luminance block with a difference of -1 -/
def blkD : List Bool := [false, false] ++ [false] ++ ([] ++ [true, false])
def mbC : List Bool :=
  escapes 0 ++ ([true] ++ ([true] ++ ([] ++ ([] ++ ([] ++ (vecs ++ ([] ++ [true]))))))) ++
    ([] ++ (blkD ++ (blkY ++ (blkY ++ (blkY ++ (blkC ++ (blkC ++ [])))))))
def slC : List Bool := bitsOf 32 (0x101 + 0) ++ ([] ++ (bitsOf 5 8 ++ (infoBits (some (false, [7])) ++ mbC)))
def bitsC : List Bool := slC ++ (zeros (padding slC.length) ++ (prefix1 ++ bitsOf 8 0xB8))
theorem cleanD : CleanBlock true 0 (blockComp 0) blkD :=
  .intra 1 _ _ [] _ _ rfl (by decide +kernel) rfl (.nil _) (by simp) (by decide +kernel) (by decide)
theorem cleanC' : CleanSlice eC slC := by
  refine .mk 0 [] (bitsOf 5 8) mbC (some (false, [7])) (by decide) rfl (length_bitsOf ..) (fun _ => by decide) (fun i hi => by cases hi; decide) (.one _ ?_)
  refine .mk ⟨false, false, false, false, true⟩ _ [] _ 0
    (.mk 0 1 _ [true] [true] [] [] [] vecs [] [true] (by decide +kernel) (by decide +kernel) rfl rfl rfl ?_ rfl rfl) rfl ?_
  · exact ⟨1, false, false, rfl, .cons 0 [] _ [] rfl (.mk (bitsOf 11 0x20 ++ zeros 12) [] (bitsOf 11 0x1B ++ []) []
      (.mk (bitsOf 11 0x20) (zeros 12) 12 (by decide +kernel) rfl) rfl (.mk (bitsOf 11 0x1B) [] (-15) (by decide +kernel) rfl) rfl) .nil⟩
  · exact .coded _ _ _ _ rfl cleanD <| .coded _ _ _ _ rfl (cleanY 1 rfl) <| .coded _ _ _ _ rfl (cleanY 2 rfl) <|
      .coded _ _ _ _ rfl (cleanY 3 rfl) <| .coded _ _ _ _ rfl (cleanC 4 (by decide)) <|
      .coded _ _ _ _ rfl (cleanC 5 (by decide)) <| .nil _

/-! ### a P picture with a dual prime vector and `f_code` 10 -/

def pceP : PictureCodingExtension :=
  ⟨9, 10, 15, 15, 0, 3, false, 0, false, 0, 0, 0, false, true, true, false, false, 0, false, 0, 0⟩
def eP : PicEnv := { e 2 with pce := pceP }
def dual : List Bool := [] ++ ((([true] ++ []) ++ ([false] ++ ((bitsOf 11 0x20 ++ zeros 9) ++ [false]))) ++ [])
def mbP : List Bool :=
  escapes 0 ++ ([true] ++ ([true] ++ ([true, true] ++ ([true] ++ ([] ++ (dual ++ ([] ++ []))))))) ++ (bitsOf 9 1 ++ [])
def slP : List Bool := bitsOf 32 (0x101 + 0) ++ ([] ++ (bitsOf 5 8 ++ (infoBits none ++ mbP)))
theorem cleanP : CleanSlice eP slP := by
  refine .mk 0 [] (bitsOf 5 8) mbP none (by decide) rfl (length_bitsOf ..) (fun _ => by decide) (fun i hi => by cases hi) (.one _ ?_)
  refine .mk ⟨false, true, false, true, false⟩ _ (bitsOf 9 1) _ 0
    (.mk 0 1 _ [true] [true] [true, true] [true] [] dual [] [] (by decide +kernel) (by decide +kernel) rfl rfl rfl ?_ rfl rfl) (by decide +kernel) ?_
  · exact ⟨1, false, true, rfl, .cons 0 [] _ [] rfl (.mk ([true] ++ []) [false] (bitsOf 11 0x20 ++ zeros 9) [false]
      (.mk [true] [] 0 (by decide +kernel) rfl) (.inl rfl) (.mk (bitsOf 11 0x20) (zeros 9) 12 (by decide +kernel) rfl) (.inl rfl)) .nil⟩
  · exact .uncoded _ _ _ rfl <| .uncoded _ _ _ rfl <| .uncoded _ _ _ rfl <| .uncoded _ _ _ rfl <| .uncoded _ _ _ rfl <| .uncoded _ _ _ rfl <| .nil _

end FCodeEx

open FCodeEx in
/-- **C146**: the condition on `f_code` is necessary.  In an I picture with concealment vectors and `f_code` 13 (a reserved value, which the
decoder accepts) a slice that meets all other conditions is decoded without error, but contains the start code of a group of pictures, at
which `AlignTo` stops. -/
theorem C146_fcode_false : ∃ (e : PicEnv) (l b : List Bool), e.pce.fCode 0 0 = 13 ∧ e.pce.fCode 0 1 = 1 ∧ CleanSlice e l ∧
    b = l ++ (zeros (padding l.length) ++ (prefix1 ++ bitsOf 8 0xB8)) ∧
    (match pictureData { vs 1 b with pce := some e.pce } with
      | (.ok _, s') => s'.br.bits == prefix1 ++ bitsOf 8 0xB8
      | _ => false) = true ∧
    (alignTo 0x1B8 ⟨b, 0, .eof, []⟩).1 = .ok () ∧ (alignTo 0x1B8 ⟨b, 0, .eof, []⟩).2.pos = 64 ∧ 64 < l.length :=
  ⟨eC, slC, bitsC, rfl, rfl, cleanC', rfl, by decide +kernel, by decide +kernel, by decide +kernel, by decide +kernel⟩

open FCodeEx in
/-- **C146**: 9 is the greatest value of `f_code` for which it holds: with 10 a slice with a dual prime vector contains a start code prefix. -/
theorem C146_ten_false : ∃ (e : PicEnv) (l x y : List Bool), (∀ t < 2, e.pce.fCode 0 t ≤ 10) ∧ CleanSlice e l ∧ l = x ++ (prefix1 ++ y) ∧ x ≠ [] :=
  ⟨eP, slP, slP.take 51, slP.drop 75, fun t ht => by
    rcases (show t = 0 ∨ t = 1 by omega) with rfl | rfl <;> decide, cleanP, by decide +kernel, by decide +kernel⟩

end Mpeg.Video
