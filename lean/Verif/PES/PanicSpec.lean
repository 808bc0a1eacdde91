/-
The beginnings of PES packets on which parsing panics.
-/
import Verif.PES.Spec
namespace Mpeg.PES.Spec

/-- A header extension that announces something that is not implemented, as far as it is looked at: a pack header or a sequence
counter (behind the private data), or a second extension (behind the P-STD buffer). -/
inductive ExtPanic : List Bool → Prop
  | counter (priv : Option (List UInt8)) (pack count pstd ext2 : Bool) (reserved : Nat) :
      (∀ d ∈ priv, d.length = 16) → (pack || count) = true →
      ExtPanic ([priv.isSome, pack, count, pstd] ++ bitsOf 3 reserved ++ [ext2] ++ encPriv priv)
  | second (priv : Option (List UInt8)) (pstd : Option (Nat × Nat)) (reserved : Nat) :
      (∀ d ∈ priv, d.length = 16) → (∀ b ∈ pstd, b.1 < 2 ∧ b.2 < 2 ^ 13) →
      ExtPanic ([priv.isSome, false, false, pstd.isSome] ++ bitsOf 3 reserved ++ [true] ++ encPriv priv ++
        encPStd (pstd.map fun b => (1, b.1, b.2)))

/-- The beginning of a packet with header up to the optional fields: any values in the fixed part, then time stamps with correct
markers as announced (none if PTS_DTS_flags is 00 or 01). -/
def panicHead (id len sc hdl : Nat) (b : Bool × Bool × Bool × Bool) (t : Stamps) (f : Bool × Bool × Bool × Bool × Bool × Bool) : List Bool :=
  encStart id len ++ bitsOf 2 2 ++ bitsOf 2 sc ++ [b.1, b.2.1, b.2.2.1, b.2.2.2] ++ bitsOf 2 t.flags ++
    [f.1, f.2.1, f.2.2.1, f.2.2.2.1, f.2.2.2.2.1, f.2.2.2.2.2] ++ bitsOf 8 hdl ++ encStamps t

/-- The words on which the PES parser panics: one of ESCR, ES_rate, DSM_trick_mode, additional_copy_info and PES_CRC is announced; or
none of them, but a header extension, in which something is announced that is not implemented. -/
inductive PanicWord : List Bool → Prop
  | flag (id len sc hdl : Nat) (b : Bool × Bool × Bool × Bool) (t : Stamps) (f0 f1 f2 f3 f4 f5 : Bool) :
      id < 256 → len < 65536 → id ∉ noHeaderIds → t.WF → t.good = true → (f0 || f1 || f2 || f3 || f4) = true →
      PanicWord (panicHead id len sc hdl b t (f0, f1, f2, f3, f4, f5))
  | ext (id len sc hdl : Nat) (b : Bool × Bool × Bool × Bool) (t : Stamps) (w : List Bool) :
      id < 256 → len < 65536 → id ∉ noHeaderIds → t.WF → t.good = true → ExtPanic w →
      PanicWord (panicHead id len sc hdl b t (false, false, false, false, false, true) ++ w)

end Mpeg.PES.Spec
