/-
Extension and user data (ISO 13818-2 6.2.2.2, 6.2.3.2 and following), as lists of items, independent of the parsers.
-/
import Verif.Video.HeaderSpec
namespace Mpeg.Video.Spec

/-! ### picture temporal scalable extension (6.2.3.4), without its start code -/

structure TempExt where
  select : Nat
  forward : Nat
  backward : Nat
deriving DecidableEq, Repr

def TempExt.WF (h : TempExt) : Prop := h.select < 4 ∧ h.forward < 2 ^ 10 ∧ h.backward < 2 ^ 10
instance (h : TempExt) : Decidable h.WF := by unfold TempExt.WF; infer_instance

def encTemp (h : TempExt) : List Bool :=
  bitsOf 4 10 ++ bitsOf 2 h.select ++ bitsOf 10 h.forward ++ [true] ++ bitsOf 10 h.backward

/-! ### items -/

/-- User data, or an extension that the source does not reject. -/
inductive Item where
  | user (bytes : List Nat)
  | display (h : SeqDisp)
  | quant (h : QExt)
  | temporal (h : TempExt)

/-- The bytes do not contain a start code prefix, not even together with the one that follows them. -/
def UserOK (d : List Nat) : Prop :=
  (∀ x ∈ d, x < 256) ∧ ∀ j < d.length, ((d.flatMap (bitsOf 8) ++ prefix1).drop (8 * j)).take 24 ≠ prefix1

/-- Which items may stand after a sequence extension (0), a group of pictures header (1) and a picture coding
extension (2) (6.2.2.2.1: `extension_data(i)`). -/
def Item.OK (i : Nat) : Item → Prop
  | .user d => UserOK d
  | .display h => i = 0 ∧ h.WF
  | .quant h => i = 2 ∧ h.WF
  | .temporal h => i = 2 ∧ h.WF

/-- The bits of an extension after its start code. -/
def Item.body : Item → List Bool
  | .user _ => []
  | .display h => encSeqDisp h
  | .quant h => encQExt h
  | .temporal h => encTemp h

/-- `bits`, from bit position `pos` on, codes the items; an extension is followed by any bits up to the byte boundary
and by any number of zero bytes. -/
inductive ItemsCode (i : Nat) : Nat → List Item → List Bool → Prop
  | nil {pos : Nat} : ItemsCode i pos [] []
  | user {pos : Nat} {d : List Nat} {its : List Item} {more : List Bool} : Item.OK i (.user d) →
      ItemsCode i (pos + (encUser d).length) its more → ItemsCode i pos (.user d :: its) (encUser d ++ more)
  | ext {pos : Nat} {it : Item} {its : List Item} {pad more : List Bool} (k : Nat) : it.OK i → (∀ d, it ≠ .user d) →
      pad.length = padding (pos + 32 + it.body.length) →
      ItemsCode i (pos + 32 + it.body.length + pad.length + 8 * k) its more →
      ItemsCode i pos (it :: its) (bitsOf 32 0x1B5 ++ (it.body ++ (pad ++ (zeros (8 * k) ++ more))))

/-- The four matrices in use (6.3.11): intra, non intra, chroma intra, chroma non intra, as transmitted. -/
structure Mats where
  m0 : Mat
  m1 : Mat
  m2 : Mat
  m3 : Mat

/-- What an item does to the matrices: a luminance matrix is also loaded as chrominance matrix. -/
def Item.load (q : Mats) : Item → Mats
  | .quant h => ⟨latest q.m0 [h.intra], latest q.m1 [h.nonIntra], latest q.m2 [h.intra, h.chromaIntra],
      latest q.m3 [h.nonIntra, h.chromaNonIntra]⟩
  | _ => q

end Mpeg.Video.Spec
