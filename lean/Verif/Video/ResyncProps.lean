/-
C128: decoding is resumed at the next closed group of pictures after a picture with damaged data.
-/
import Verif.Video.ResyncLemmas
import Verif.Video.RecoverProps
import Verif.Video.SynProps
import Verif.Video.TermLemmas
namespace Mpeg.Video
open Spec

variable {stop : Err} {later : List (List Bool × Err)}

/-- **C128**, any state (partial): groups of pictures as entry points.  Whatever has happened to the decoder before, if the
sequence header, sequence extension and matrices it holds are the headers `x` in force in the stream, `AlignTo` with the
group start code finds the next group of pictures behind any amount of other data, and the calls of `Next` return the at
most two finished pictures that were still waiting, and then exactly the pictures of the stream from there on.

Partial: the streams of C75; the group of pictures is closed (see `C87_leading_false`). -/
theorem C128_seek_partial {W H fuel k base : Nat} {x : Ctx} {prev : Option Image} {gs : List CGroup}
    {skip bits rest : List Bool} {imgs : List Image} (hk : 2 ≤ k) (hent : ClosedGop gs) (s : VS) (hat : At W H x s)
    (hb : fromBoundary s.br = skip ++ (bits ++ (bitsOf 32 0x1B7 ++ rest))) (h8 : skip.length % 8 = 0)
    (hno : ∀ j, 8 * j < skip.length → ((fromBoundary s.br).drop (8 * j)).take 32 ≠ bitsOf 32 0x1B8)
    (h : GroupsCode W H base (some x) prev (s.br.pos + padding s.br.pos + skip.length) gs bits imgs) (hf : bits.length < fuel) :
    ∃ s1, VS.lift (alignTo 0x1B8) s = (.ok (), s1) ∧ ∃ w frames t, nexts fuel k (w.length + imgs.length) s1 = (.ok (w ++ frames), t) ∧
      w.length ≤ 2 ∧ (∀ f ∈ w, ∃ r, (s.fs.f0 = some r ∨ s.fs.f1 = some r) ∧ r.frame = f) ∧
      (s.fs.tryGet s.frameCounter = none → w = []) ∧
      frames.length = imgs.length ∧ (∀ i (h1 : i < frames.length) (h2 : i < imgs.length), Shows W H frames[i] imgs[i]) ∧
      (VS.next fuel k t).1 = .err .eos ∧ (VS.next fuel k t).2.br.bits = rest := by
  obtain ⟨u, hu⟩ := gop_starts hent h
  have hpad : (s.br.pos + padding s.br.pos) % 8 = 0 := by unfold padding; omega
  obtain ⟨q, hq⟩ : ∃ q, skip.length = 8 * q := ⟨skip.length / 8, by omega⟩
  have hcode : ((fromBoundary s.br).drop (8 * q)).take 32 = bitsOf 32 0x1B8 := by
    rw [hb, List.drop_left' hq, hu, List.append_assoc, List.take_left' (length_bitsOf ..)]
  have hal : alignTo 0x1B8 s.br = (.ok (), ⟨bits ++ (bitsOf 32 0x1B7 ++ rest), s.br.pos + padding s.br.pos + 8 * q, s.br.stop,
      s.br.later⟩) := by
    rcases C35 0x1B8 (by decide) s.br with ⟨m, m1, m2, m3⟩ | ⟨m1, _⟩
    · have hmq : m = q := by
        rcases Nat.lt_trichotomy m q with hlt | heq | hgt
        · exact absurd m2 (hno m (by omega))
        · exact heq
        · exact absurd hcode (m3 q hgt)
      subst hmq
      rw [m1, hb, List.drop_left' hq]
    · exact absurd hcode (m1 q)
  obtain ⟨s1, hs1⟩ : ∃ s1 : VS, s1 = { s with br := ⟨bits ++ (bitsOf 32 0x1B7 ++ rest), s.br.pos + padding s.br.pos + 8 * q,
      s.br.stop, s.br.later⟩ } := ⟨_, rfl⟩
  refine ⟨s1, by unfold VS.lift; rw [hal, hs1], ?_⟩
  obtain ⟨w, s', w1, w2, ⟨c, w3⟩, w4, w5, w6⟩ := waiting fuel k s1
  have hb' : s'.br = ⟨bits ++ (prefix1 ++ (bitsOf 8 0xB7 ++ rest)), s.br.pos + padding s.br.pos + 8 * q, s.br.stop, s.br.later⟩ := by
    rw [w3, ← code_B7, hs1]
  rw [hq] at h
  obtain ⟨frames, t, f1, f2, base', z, pf', P, f3, f4, _⟩ := closed_next (n := 0xB7) hk (by decide) (by decide) hent h
    (s := s') (by rw [w3, hs1]; exact at_lift hat rfl rfl rfl) w4 (by omega) hf hb'
  obtain ⟨e1, _⟩ := end_next (fuel := fuel) (k := k) (by omega) f3 f4
  rw [hs1] at w5 w6
  exact ⟨w, frames, t, nexts_append w2 f1, w1, w6, w5, f2.length, f2.get, by rw [e1], by rw [e1]⟩

theorem damaged_fails {W H : Nat} {y : Ctx} {c : Coded} (hok : c.OK W H) {s : VS} (hat : At W H y s)
    (hph : s.ph = some (viewPic c.hdr)) (hpce : s.pce = some (viewPicExt c.ext)) (hlat : s.br.later = [])
    (hbad : c.Damaged y s.br.pos s.br.bits) (f : Frame) : (pictureData s).1 ≠ .ok f := by
  intro h
  have hpl : Plain (s.env (viewSeq y.seq) (viewSeqExt y.ext) (viewPic c.hdr) (viewPicExt c.ext)) := by
    have hc := covered hat.good hok s.fs.past s.fs.future
    refine ⟨hc.chroma, fun a ha b hb => hc.fcodes a b ha hb, ?_⟩
    obtain ⟨w1, w2, w3, w4, w5, w6, w7, _⟩ := hok.ext
    have h3 : (viewPicExt c.ext).pictureStructure = 3 := hok.structure_
    have h2 : (viewPicExt c.ext).framePredFrameDCT = c.ext.framePredFrameDCT := rfl
    show (viewPicExt c.ext).framePredFrameDCT = 0 ∨ (viewPicExt c.ext).framePredFrameDCT = 1 ∧ (viewPicExt c.ext).pictureStructure = 3
    rw [h2]
    omega
  cases hx : pictureData s with
  | mk q s' =>
    rw [hx] at h
    dsimp only at h
    subst h
    obtain ⟨l, r, k1, k2, k3, _⟩ := C97_picture_only_partial hat.sh hat.se hph hpce hpl hlat hx
    exact hbad _ l r rfl rfl rfl rfl k1 k2 k3

/-- **C128** (partial): a picture with damaged data costs no more than the pictures up to the next closed group of pictures.
A new decoder reads the pictures `imgs1`, then the headers of a reference picture `c`, whose data are no slices of the
standard's syntax.  The calls of `Next` return the pictures `imgs1`; the next call fails, with an error or a panic.  If the
caller then calls `AlignTo` with the group start code and the failure has not left the reader behind the start of the
next group of pictures, the calls of `Next` return exactly the pictures `imgs2` from there on, although no sequence header
is repeated, and then the end of the sequence.

Partial: the streams of C75; the damaged picture is the first of its group (`CGroup`); the following group of pictures is
closed; how far the reader is when the call fails is left open. -/
theorem C128_partial {W H lead fuel k n : Nat} {gs1 : List CGroup} {bits1 hdr rest : List Bool} {imgs1 : List Image}
    {c : Coded} {y : Ctx} (hk : 2 ≤ k) (hgs : gs1 ≠ []) (h1 : GroupsCode W H 0 none none (8 * lead) gs1 bits1 imgs1)
    (hok : c.OK W H) (hy : c.ctx (inForce none gs1) = some y) (hp : Parts (8 * lead + bits1.length) c.headers hdr)
    (hn : n < 256) (hn5 : n ≠ 0xB5) (hn2 : n ≠ 0xB2)
    (hbad : c.Damaged y (8 * lead + bits1.length + hdr.length) (prefix1 ++ (bitsOf 8 n ++ rest)))
    (hf : bits1.length + hdr.length < fuel) :
    ∃ frames1 t1 r t2,
      nexts fuel k imgs1.length (VS.new ⟨zeros (8 * lead) ++ (bits1 ++ (hdr ++ (prefix1 ++ (bitsOf 8 n ++ rest)))), 0, stop, []⟩) =
        (.ok frames1, t1) ∧
      frames1.length = imgs1.length ∧ (∀ i (h1 : i < frames1.length) (h2 : i < imgs1.length), Shows W H frames1[i] imgs1[i]) ∧
      VS.next fuel k t1 = (r, t2) ∧ ((∃ e, r = .err e) ∨ r = .panic) ∧
      ∀ {base : Nat} {prev : Option Image} {gs2 : List CGroup} {skip bits2 rest2 : List Bool} {imgs2 : List Image},
        ClosedGop gs2 → fromBoundary t2.br = skip ++ (bits2 ++ (bitsOf 32 0x1B7 ++ rest2)) → skip.length % 8 = 0 →
        (∀ j, 8 * j < skip.length → ((fromBoundary t2.br).drop (8 * j)).take 32 ≠ bitsOf 32 0x1B8) →
        GroupsCode W H base (some y) prev (t2.br.pos + padding t2.br.pos + skip.length) gs2 bits2 imgs2 → bits2.length < fuel →
        ∃ t3 frames2 t4, VS.lift (alignTo 0x1B8) t2 = (.ok (), t3) ∧ nexts fuel k imgs2.length t3 = (.ok frames2, t4) ∧
          frames2.length = imgs2.length ∧
          (∀ i (h1 : i < frames2.length) (h2 : i < imgs2.length), Shows W H frames2[i] imgs2[i]) ∧
          (VS.next fuel k t4).1 = .err .eos ∧ (VS.next fuel k t4).2.br.bits = rest2 := by
  have hB : Between W H 0 none none none
      (VS.new ⟨zeros (8 * lead) ++ (bits1 ++ (hdr ++ (prefix1 ++ (bitsOf 8 n ++ rest)))), 0, stop, []⟩) :=
    ⟨rfl, ⟨rfl, fun r h => (by cases h), fun r h => (by cases h)⟩, rfl, .inl ⟨rfl, rfl⟩, fun Q hQ => (by cases hQ),
      fun _ => ⟨rfl, rfl⟩⟩
  obtain ⟨m, u, hm, hms, hu⟩ := headers_start hp
  obtain ⟨frames1, t1, a1, a2, a3⟩ := groups_next_ctx (stop := stop) (later := []) (n := m)
    (rest := u ++ (prefix1 ++ (bitsOf 8 n ++ rest))) (fuel := fuel)
    (k := k) hk hm hms h1 (lead := lead) hB (fun h => absurd rfl h) (by omega) (Nat.le_refl _) (by omega)
    (by simp only [VS.new, Nat.sub_self, hu, List.append_assoc])
  obtain ⟨base', pf', P, b1, b2, b3⟩ := a3 hgs
  have hget : t1.fs.tryGet t1.frameCounter = none := by rw [b1.counter]; exact b1.ready.tryGet
  obtain ⟨s1, c1, c2, c3, c4, c5, c6, c7, c8⟩ := headers_step (stop := stop) (later := []) (k := 0) hok (fun _ => b1.ctx) hy
    (fun _ => rfl) hp b3 (by omega) (fuel := fuel) (n := n) (rest := rest) (by omega) hn hn5 hn2
    (by rw [b2, hu]; simp only [List.append_assoc]; rfl)
  cases hx : pictureStep s1 with
  | mk r t2 =>
    have hlat : s1.br.later = [] := by rw [c7]
    have hdam : c.Damaged y s1.br.pos s1.br.bits := by rw [c7]; exact hbad
    obtain ⟨fs', hfs'⟩ : ∃ fs', fs' = s1.fs.set (viewPic c.hdr).temporalReference := ⟨_, rfl⟩
    have hfail : ∀ f, (pictureData { s1 with fs := s1.fs.set (viewPic c.hdr).temporalReference }).1 ≠ .ok f := by
      rw [← hfs']
      exact damaged_fails hok (at_lift c2 rfl rfl rfl) c3 c4 hlat hdam
    obtain ⟨d1, br, d2⟩ := pictureStep_fails c3 hfail hx
    have hnext : VS.next fuel k t1 = (r, t2) ∧ ((∃ e, r = .err e) ∨ r = .panic) := by
      rw [next_loop hget]
      obtain ⟨k', rfl⟩ : ∃ k', k = k' + 1 := ⟨k - 1, by omega⟩
      unfold nextLoop
      rw [hx] at c1
      cases r with
      | ok f => exact absurd rfl (d1 f)
      | err e => exact ⟨Go.bind_err c1, .inl ⟨e, rfl⟩⟩
      | panic => exact ⟨Go.bind_panic c1, .inr rfl⟩
      | hang =>
        exfalso
        have := nohang_pictureStep s1
        rw [hx] at this
        exact this rfl
    refine ⟨frames1, t1, r, t2, a1, a2.length, a2.get, hnext.1, hnext.2, ?_⟩
    intro base prev gs2 skip bits2 rest2 imgs2 hent e1 e2 e3 e4 e5
    have hw : t2.fs.tryGet t2.frameCounter = none := by
      rw [d2]
      show ((s1.fs.set _).tryGet s1.frameCounter) = none
      rw [c5, c6, b1.counter]
      cases c.gop.isSome with
      | true => exact b1.ready.enter.set.tryGet
      | false => exact b1.ready.set.tryGet
    obtain ⟨t3, g1, w, frames2, t4, g2, g3, g4, g5, g6⟩ := C128_seek_partial hk hent t2
      (by rw [d2]; exact at_lift c2 rfl rfl rfl) e1 e2 e3 e4 e5
    have := g5 hw
    subst this
    rw [List.length_nil, Nat.zero_add, List.nil_append] at g2
    exact ⟨t3, frames2, t4, g1, g2, g6⟩

/-! ### an example -/

namespace ExResync
open ExStream

/-- A closed group of pictures without sequence header. -/
def picG : Coded := ⟨none, some ⟨gopH, []⟩, ⟨0, .other 1, 0, []⟩, picE, [], [sl 0 mbI]⟩

def sliceBits : List Bool := byte ((sl 0 mbI).head (envI 16 1) ++ ((codeI 16 1 0 ⟨none, none⟩ blank).bits ++ []))
def bitsG : List Bool :=
  byte (encGOP gopH) ++ (byte (encPic ⟨0, .other 1, 0, []⟩) ++ (byte (encPicExt picE) ++ sliceBits))
def bitsI : List Bool := byte (encSeq (seqH 16)) ++ (byte (encSeqExt (seqE 1)) ++ bitsG)
/-- the headers of a P picture -/
def hdrP : List Bool := byte (encPic picP.hdr) ++ byte (encPicExt picE)
/-- the header of a slice after its start code, followed by 18 zeros, which are the beginning of no macroblock -/
def junk : List Bool := bitsOf 5 5 ++ ([false] ++ (zeros 18 ++ bitsOf 16 0x55AA))
/-- the header of a slice that is cut off behind it -/
def cut : List Bool := bitsOf 5 5 ++ ([false] ++ zeros 2)

theorem parts_cast {p p' : Nat} {Ps : List Part} {b b' : List Bool} (h : Parts p Ps b) (hp : p = p') (hb : b = b') :
    Parts p' Ps b' := by subst hp hb; exact h

theorem byte_length (l : List Bool) : (byte l).length % 8 = 0 := by
  unfold byte
  rw [List.length_append, show (zeros (padding l.length)).length = padding l.length from List.length_replicate]
  unfold padding
  omega

theorem slice_part {pos : Nat} (hp : pos % 8 = 0) :
    SlicesCode (envI 16 1) ⟨none, none⟩ 1 1 pos blank [sl 0 mbI] sliceBits := by
  have h := SlicesCode.cons (pos := pos) 0 (sliceI 16 1 0 1 (by decide) (by decide) ⟨none, none⟩ blank) .nil
  have e : ∀ l : List Bool, l ++ (zeros (padding (pos + l.length)) ++ (zeros (8 * 0) ++ ([] : List Bool))) = byte l := by
    intro l
    have : padding (pos + l.length) = padding l.length := by unfold padding; omega
    rw [this]
    simp [byte, zeros]
  rw [e] at h
  exact h

theorem partsG {pos : Nat} (hp : pos % 8 = 0) : Parts pos (picG.parts (cx 16 1) ⟨none, none⟩ 1 1) bitsG := by
  have b1 := byte_length (encGOP gopH)
  have b2 := byte_length (encPic ⟨0, .other 1, 0, []⟩)
  have b3 := byte_length (encPicExt picE)
  have h := Parts.cons (P := Stuffed (encGOP gopH)) (stuffed_byte (encGOP gopH) hp)
    (.cons (P := ItemsPart 1 []) (b := []) .nil
      (.cons (P := Stuffed (encPic ⟨0, .other 1, 0, []⟩)) (stuffed_byte (encPic ⟨0, .other 1, 0, []⟩) (by rw [List.length_nil]; omega))
        (.cons (P := Stuffed (encPicExt picE)) (stuffed_byte (encPicExt picE) (by rw [List.length_nil]; omega))
          (.cons (P := ItemsPart 2 []) (b := []) .nil
            (.cons (P := fun pos b => SlicesCode (envI 16 1) ⟨none, none⟩ 1 1 pos blank [sl 0 mbI] b)
              (slice_part (by simp only [List.length_nil]; omega)) .nil)))))
  exact parts_cast h rfl (by unfold bitsG; simp only [List.nil_append, List.append_nil])

theorem partsI : Parts 0 ((picI 16 1 [sl 0 mbI]).parts (cx 16 1) ⟨none, none⟩ 1 1) bitsI := by
  have b1 := byte_length (encSeq (seqH 16))
  have b2 := byte_length (encSeqExt (seqE 1))
  have h := Parts.cons (P := Stuffed (encSeq (seqH 16))) (stuffed_byte (encSeq (seqH 16)) (pos := 0) (by decide))
    (.cons (P := Stuffed (encSeqExt (seqE 1))) (stuffed_byte (encSeqExt (seqE 1)) (by omega))
      (.cons (P := ItemsPart 0 []) (b := []) .nil (partsG (by rw [List.length_nil]; omega))))
  exact parts_cast h rfl (by unfold bitsI; simp only [List.nil_append])

theorem partsP {pos : Nat} (hp : pos % 8 = 0) : Parts pos picP.headers hdrP := by
  have b1 := byte_length (encPic picP.hdr)
  have h := Parts.cons (P := Stuffed (encPic picP.hdr)) (stuffed_byte (encPic picP.hdr) hp)
    (.cons (P := Stuffed (encPicExt picE)) (stuffed_byte (encPicExt picE) (by omega))
      (.cons (P := ItemsPart 2 []) (b := []) .nil .nil))
  exact parts_cast h rfl (by unfold hdrP; simp only [List.append_nil])

theorem okG : picG.OK 1 1 := okPic _ (by decide) (.inl rfl) (fun g h => by cases h; decide) rfl rfl (by simp [picG])
theorem okI : (picI 16 1 [sl 0 mbI]).OK 1 1 := okPic _ (by decide) (.inr rfl) (fun g h => by cases h; decide) rfl rfl (by simp [picI])
theorem okP : picP.OK 1 1 := okPic _ (by decide) (.inl rfl) (fun g h => by cases h) rfl rfl (by simp [picP])

theorem first : GroupsCode 1 1 0 none none (8 * 0) [⟨picI 16 1 [sl 0 mbI], []⟩] bitsI
    [(picI 16 1 [sl 0 mbI]).image (cx 16 1) ⟨none, none⟩] := by
  have h := GroupsCode.cons (base := 0) (base0 := 0) (σ := none) (g := ⟨picI 16 1 [sl 0 mbI], []⟩) okI (.inl rfl) rfl rfl
    rfl partsI .nil .nil
  rw [show bitsI ++ ([] ++ []) = bitsI by simp] at h
  exact h

theorem second {pos : Nat} (hp : pos % 8 = 0) : GroupsCode 1 1 0 (some (cx 16 1)) none pos [⟨picG, []⟩] bitsG
    [picG.image (cx 16 1) ⟨none, none⟩] := by
  have h := GroupsCode.cons (base := 0) (base0 := 0) (σ := some (cx 16 1)) (g := ⟨picG, []⟩) okG (.inl rfl) rfl rfl
    rfl (partsG hp) .nil .nil
  rw [show bitsG ++ ([] ++ []) = bitsG by simp] at h
  exact h

theorem closedG : ClosedGop [⟨picG, []⟩] := ⟨_, _, rfl, rfl, by simp [picG], rfl, fun _ h => (by cases h)⟩

/-! a slice with 18 zeros in place of its first macroblock -/

theorem head_true {e : PicEnv} {t : MacroblockType} {l : List Bool} (h : HeadWord e t l) :
    ∃ a b, l = a ++ b ∧ true ∈ a ∧ a.length ≤ 11 := by
  cases h with
  | mk k v t addr type motion dct q f b mark hAddr =>
    cases k with
    | zero =>
      have : ∀ x ∈ isoAddress, true ∈ x.1 ∧ x.1.length ≤ 11 := by decide +kernel
      exact ⟨addr, _, rfl, this _ hAddr⟩
    | succ k =>
      exact ⟨addressEscape, _, List.append_assoc .., by decide +kernel, by decide +kernel⟩

theorem many_true {e : PicEnv} {l : List Bool} (h : Many (LaxWord e) l) : ∃ a b, l = a ++ b ∧ true ∈ a ∧ a.length ≤ 11 := by
  have key : ∀ l, LaxWord e l → ∃ a b, l = a ++ b ∧ true ∈ a ∧ a.length ≤ 11 := by
    intro l h
    rcases h with h | h
    · cases h with
      | mk t head pat blocks cbp h =>
        obtain ⟨a, b, rfl, h1, h2⟩ := head_true h
        exact ⟨a, _, List.append_assoc .., h1, h2⟩
    · cases h with
      | mk t head h =>
        obtain ⟨a, b, rfl, h1, h2⟩ := head_true h
        exact ⟨a, _, List.append_assoc .., h1, h2⟩
  cases h with
  | one _ h => exact key _ h
  | cons l m h _ =>
    obtain ⟨a, b, rfl, h1, h2⟩ := key l h
    exact ⟨a, _, List.append_assoc .., h1, h2⟩

theorem no_slice {e : PicEnv} (he : ¬ 2800 < e.sh.verticalSizeValue) {l m r : List Bool} (hl : SliceWord e (LaxWord e) l)
    (h : l ++ m = bitsOf 32 0x101 ++ (bitsOf 5 5 ++ ([false] ++ (zeros 18 ++ r)))) : False := by
  cases hl with
  | mk row ext q mbs info hRow hExt hQ hInfo hMbs =>
    rw [if_neg he] at hExt
    have := List.eq_nil_of_length_eq_zero hExt
    subst this
    simp only [List.append_assoc, List.nil_append] at h
    have h1 := (List.append_inj h (by rw [length_bitsOf, length_bitsOf])).2
    have h2 := (List.append_inj h1 (by rw [length_bitsOf]; exact hQ)).2
    cases info with
    | some i => cases h2
    | none =>
      have h3 : mbs ++ m = zeros 18 ++ r := (List.cons.inj h2).2
      obtain ⟨a, b, rfl, ha, hl⟩ := many_true hMbs
      have h4 : a <+: zeros 18 := by
        refine List.prefix_of_prefix_length_le (l₃ := zeros 18 ++ r) ⟨b ++ m, by rw [← h3, List.append_assoc]⟩ ⟨r, rfl⟩ ?_
        show a.length ≤ (zeros 18).length
        rw [show (zeros 18).length = 18 from rfl]
        omega
      have := List.eq_of_mem_replicate (h4.subset ha)
      cases this

theorem damaged (pos : Nat) (r : List Bool) :
    picP.Damaged (cx 16 1) pos (prefix1 ++ (bitsOf 8 1 ++ (bitsOf 5 5 ++ ([false] ++ (zeros 18 ++ r))))) := by
  intro e l r' h1 _ _ _ hl hd _
  have hv : ¬ 2800 < e.sh.verticalSizeValue := by rw [h1]; decide
  rw [← List.append_assoc, ← code32_bits (by decide)] at hd
  cases hl with
  | one _ k l h =>
    refine no_slice hv h (m := zeros (padding (pos + l.length)) ++ zeros (8 * k) ++ (prefix1 ++ r')) (r := r) ?_
    rw [hd]
    simp only [List.append_assoc]
  | cons _ k l m h _ =>
    refine no_slice hv h (m := zeros (padding (pos + l.length)) ++ (zeros (8 * k) ++ m) ++ (prefix1 ++ r')) (r := r) ?_
    rw [hd]
    simp only [List.append_assoc]

def stream (data : List Bool) : List Bool := bitsI ++ (hdrP ++ (prefix1 ++ (bitsOf 8 1 ++ (data ++ (bitsG ++ (bitsOf 32 0x1B7 ++ []))))))

/-- the decoder after the first picture and after the failure -/
def failed (data : List Bool) : VS := (VS.next 1000 2 (nexts 1000 2 1 (VS.new ⟨stream data, 0, .eof, []⟩)).2).2

theorem failed_pos : (failed junk).br.pos = 645 := by decide +kernel
theorem failed_bits : fromBoundary (failed junk).br = zeros 8 ++ bitsOf 16 0x55AA ++ (bitsG ++ (bitsOf 32 0x1B7 ++ [])) := by
  decide +kernel

/-- The I picture, the failure of the P picture, and the I picture of the next group of pictures. -/
example : ∃ t1 t2 t3 t4 f1 f2 r, nexts 1000 2 1 (VS.new ⟨stream junk, 0, .eof, []⟩) = (.ok [f1], t1) ∧
    VS.next 1000 2 t1 = (r, t2) ∧ ((∃ e, r = .err e) ∨ r = .panic) ∧ VS.lift (alignTo 0x1B8) t2 = (.ok (), t3) ∧
    nexts 1000 2 1 t3 = (.ok [f2], t4) ∧ Shows 1 1 f2 (picG.image (cx 16 1) ⟨none, none⟩) ∧ (VS.next 1000 2 t4).1 = .err .eos := by
  have hz : zeros (8 * 0) ++ (bitsI ++ (hdrP ++ (prefix1 ++ (bitsOf 8 1 ++ (junk ++ (bitsG ++ (bitsOf 32 0x1B7 ++ []))))))) = stream junk := rfl
  obtain ⟨fr1, t1, r, t2, a1, a2, a3, a4, a5, a6⟩ := C128_partial (stop := .eof) (lead := 0) (fuel := 1000) (k := 2) (n := 1)
    (rest := junk ++ (bitsG ++ (bitsOf 32 0x1B7 ++ []))) (Nat.le_refl _) (List.cons_ne_nil _ _) first okP rfl
    (partsP (by decide +kernel)) (by decide) (by decide) (by decide) (by
      unfold junk
      simp only [List.append_assoc]
      exact damaged _ _) (by decide +kernel)
  rw [hz] at a1
  have ht2 : t2 = failed junk := by
    unfold failed
    rw [show nexts 1000 2 1 (VS.new ⟨stream junk, 0, .eof, []⟩) = _ from a1, a4]
  obtain ⟨t3, fr2, t4, b1, b2, b3, b4, b5, b6⟩ := a6 (base := 0) (prev := none) (skip := zeros 8 ++ bitsOf 16 0x55AA) (rest2 := [])
    closedG (by rw [ht2]; exact failed_bits) (by decide) (by
      intro j hj
      rw [ht2, failed_bits]
      have hj3 : j < 3 := by
        have h24 : (zeros 8 ++ bitsOf 16 0x55AA).length = 24 := by decide
        omega
      clear hj
      revert j
      decide +kernel) (second (by
        rw [ht2, failed_pos]
        decide)) (by decide +kernel)
  match fr1, a2, fr2, b3 with
  | [f1], _, [f2], _ =>
    exact ⟨t1, t2, t3, t4, f1, f2, r, a1, a4, a5, b1, b2, b4 0 Nat.zero_lt_one Nat.zero_lt_one, b5⟩

/-- the same with the slice cut off -/
theorem cut_lost : (VS.lift (alignTo 0x1B8) (VS.next 1000 2 (nexts 1000 2 1 (VS.new
    ⟨bitsI ++ (hdrP ++ (prefix1 ++ (bitsOf 8 1 ++ (cut ++ (bitsG ++ bitsOf 32 0x1B7))))), 0, .eof, []⟩)).2).2).1 = .err .unexpectedEOF := by
  decide +kernel

end ExResync
open ExResync ExStream in
/-- **C128**: that the reader has not gone beyond the start of the next group of pictures is needed.  When the data of a
picture are cut off, the failing call may have read a part of the start code that follows: here the P picture ends behind
the header of its slice; `AlignTo` misses the closed group of pictures that follows immediately, and the I picture in it
is lost. -/
theorem C128_cut_false : ∃ (bits1 hdr data bits2 : List Bool) (imgs1 imgs2 : List Image) (gs1 gs2 : List CGroup) (s t : VS),
    GroupsCode 1 1 0 none none 0 gs1 bits1 imgs1 ∧ Parts bits1.length picP.headers hdr ∧
    picP.Damaged (cx 16 1) (bits1.length + hdr.length) (prefix1 ++ (bitsOf 8 1 ++ (data ++ (bits2 ++ bitsOf 32 0x1B7)))) ∧
    ClosedGop gs2 ∧
    GroupsCode 1 1 0 (some (cx 16 1)) none (bits1.length + hdr.length + 32 + data.length) gs2 bits2 imgs2 ∧
    s = (nexts 1000 2 imgs1.length (VS.new ⟨bits1 ++ (hdr ++ (prefix1 ++ (bitsOf 8 1 ++ (data ++ (bits2 ++ bitsOf 32 0x1B7))))), 0, .eof, []⟩)).2 ∧
    t = (VS.next 1000 2 s).2 ∧ (VS.lift (alignTo 0x1B8) t).1 = .err .unexpectedEOF := by
  refine ⟨bitsI, hdrP, cut, bitsG, _, _, _, _, _, _, first, partsP (by decide +kernel), ?_, closedG, second (by decide +kernel), rfl, rfl,
    ?_⟩
  · have : cut ++ (bitsG ++ bitsOf 32 0x1B7) = bitsOf 5 5 ++ ([false] ++ (zeros 18 ++ (cut ++ (bitsG ++ bitsOf 32 0x1B7)).drop 24)) := by
      decide +kernel
    rw [this]
    exact damaged _ _
  · exact cut_lost

end Mpeg.Video
