/-
Every loop of the program stream layer ends.
-/
import Verif.PS.ReaderLemmas
set_option linter.all false
namespace Mpeg.PS
open PES (NoHang)
open Go.NonInc BR

theorem safe_marker (k v : Nat) : Go.Safe (marker k v) := by
  unfold marker; exact .bind (safe_read _) fun _ => .check
theorem noninc_marker (k v : Nat) : Go.NonInc BR.size (marker k v) := by
  unfold marker; exact bind (noninc_read _) fun _ => PES.noninc_check _ _
theorem safe_codeCheck (k v : Nat) : Go.Safe (codeCheck k v) := by
  unfold codeCheck; exact .bind (safe_peek _) fun _ => .pure _
theorem noninc_codeCheck (k v : Nat) : Go.NonInc BR.size (codeCheck k v) := by
  unfold codeCheck; exact bind (noninc_peek _) fun _ => pure _
theorem safe_codeAssert (k v : Nat) (e : Err) : Go.Safe (codeAssert k v e) := by
  unfold codeAssert; exact .bind (safe_codeCheck _ _) fun _ => .bind .check fun _ => safe_skip _
theorem noninc_codeAssert (k v : Nat) (e : Err) : Go.NonInc BR.size (codeAssert k v e) := by
  unfold codeAssert
  exact bind (noninc_codeCheck _ _) fun _ => bind (PES.noninc_check _ _) fun _ => noninc_skip _

theorem safe_readStream : Go.Safe readStream := by
  unfold readStream
  exact .bind (safe_read _) fun _ => .bind (safe_marker _ _) fun _ => .bind safe_read1 fun _ =>
    .bind (safe_read _) fun _ => .pure _
theorem noninc_readStream : Go.NonInc BR.size readStream := by
  unfold readStream
  exact bind (noninc_read _) fun _ => bind (noninc_marker _ _) fun _ => bind noninc_read1 fun _ =>
    bind (noninc_read _) fun _ => pure _

theorem marker_took {k v : Nat} {u : Unit} {s s' : BR} (h : marker k v s = (.ok u, s')) :
    ∃ l, BR.Took s l s' := by
  unfold marker at h
  obtain ⟨x, s1, h1, h⟩ := Go.bind_eq_ok h
  obtain ⟨t, _⟩ := PES.read_inv' h1
  cases hx : (x == v) with
  | true =>
    rw [hx] at h
    simp only [Go.check_true, Go.pure_apply, Prod.mk.injEq, true_and] at h
    subst h; exact ⟨_, t⟩
  | false => rw [hx] at h; simp at h

/-- a stream entry takes at least one bit of the current segment -/
theorem readStream_took {x : Stream} {s s' : BR} (h : readStream s = (.ok x, s')) :
    s'.bits.length < s.bits.length := by
  unfold readStream at h
  obtain ⟨_, s1, h1, h⟩ := Go.bind_eq_ok h
  obtain ⟨_, s2, h2, h⟩ := Go.bind_eq_ok h
  obtain ⟨_, s3, h3, h⟩ := Go.bind_eq_ok h
  obtain ⟨_, s4, h4, h⟩ := Go.bind_eq_ok h
  simp only [Go.pure_apply, Prod.mk.injEq] at h
  obtain ⟨_, rfl⟩ := h
  obtain ⟨t1, _⟩ := PES.read_inv' h1
  obtain ⟨_, t2⟩ := marker_took h2
  have t3 := BR.read1_inv h3
  obtain ⟨t4, _⟩ := PES.read_inv' h4
  have e1 := congrArg List.length t1.bits
  have e2 := congrArg List.length t2.bits
  have e3 := congrArg List.length t3.bits
  have e4 := congrArg List.length t4.bits
  simp only [List.length_append, length_bitsOf] at e1 e2 e3 e4
  omega

theorem streamsLoop_returns : ∀ (f : Nat) (s : BR), s.bits.length < f →
    (streamsLoop f s).1 ≠ .hang ∧ (streamsLoop f s).1 ≠ .panic := by
  intro f
  induction f with
  | zero => intro s h; omega
  | succ f ih =>
    intro s hf
    rw [streamsLoop]
    rcases Nat.lt_or_ge s.bits.length 1 with h | h
    · rw [Go.bind_err (BR.peek_short h)]; simp
    · rw [Go.bind_ok (BR.peek_ok h)]
      split
      · cases hr : readStream s with
        | mk r s' =>
          have hs := safe_readStream s
          rw [hr] at hs
          cases r with
          | ok x =>
            rw [Go.bind_ok hr]
            have := ih s' (by have := readStream_took hr; omega)
            rw [Go.bind_apply]
            cases hl : streamsLoop f s' with
            | mk r2 s2 => rw [hl] at this; cases r2 <;> simp_all
          | err e => rw [Go.bind_err hr]; simp
          | panic => simp at hs
          | hang => simp at hs
      · simp

/-- The stream entry loop ends. -/
theorem streams_return : Go.Safe readStreams := fun s =>
  (streamsLoop_returns (s.bits.length + 1) s (by omega)).symm

theorem noninc_streamsLoop : ∀ f, Go.NonInc BR.size (streamsLoop f)
  | 0 => fun s => Nat.le_refl _
  | f + 1 => by
    unfold streamsLoop
    exact bind (noninc_peek _) fun _ => ite (bind noninc_readStream fun _ =>
      bind (noninc_streamsLoop f) fun _ => pure _) (pure _)
theorem noninc_readStreams : Go.NonInc BR.size readStreams := fun s => noninc_streamsLoop (s.bits.length + 1) s

theorem safe_readSystemHeader : Go.Safe readSystemHeader := by
  unfold readSystemHeader
  repeat first
    | exact .pure _
    | refine .bind (safe_read _) fun _ => ?_
    | refine .bind safe_read1 fun _ => ?_
    | refine .bind (safe_marker _ _) fun _ => ?_
    | refine .bind (safe_skip _) fun _ => ?_
    | refine .bind streams_return fun _ => ?_
theorem noninc_readSystemHeader : Go.NonInc BR.size readSystemHeader := by
  unfold readSystemHeader
  repeat first
    | exact Go.NonInc.pure _
    | refine Go.NonInc.bind (noninc_read _) fun _ => ?_
    | refine Go.NonInc.bind noninc_read1 fun _ => ?_
    | refine Go.NonInc.bind (noninc_marker _ _) fun _ => ?_
    | refine Go.NonInc.bind (noninc_skip _) fun _ => ?_
    | refine Go.NonInc.bind noninc_readStreams fun _ => ?_

theorem safe_skipStuffing : ∀ n, Go.Safe (skipStuffing n)
  | 0 => .pure _
  | n + 1 => .bind (.ignoreErr (safe_skip _)) fun _ => safe_skipStuffing n
theorem noninc_skipStuffing : ∀ n, Go.NonInc BR.size (skipStuffing n)
  | 0 => pure _
  | n + 1 => bind (ignoreErr (noninc_skip _)) fun _ => noninc_skipStuffing n

theorem safe_readPackFixed : Go.Safe readPackFixed := by
  unfold readPackFixed
  repeat first
    | exact .pure _
    | refine .bind (safe_codeAssert _ _ _) fun _ => ?_
    | refine .bind (safe_read _) fun _ => ?_
    | refine .bind (safe_marker _ _) fun _ => ?_
    | refine .bind (safe_skip _) fun _ => ?_
    | refine .bind (safe_skipStuffing _) fun _ => ?_
theorem noninc_readPackFixed : Go.NonInc BR.size readPackFixed := by
  unfold readPackFixed
  repeat first
    | exact Go.NonInc.pure _
    | refine Go.NonInc.bind (noninc_codeAssert _ _ _) fun _ => ?_
    | refine Go.NonInc.bind (noninc_read _) fun _ => ?_
    | refine Go.NonInc.bind (noninc_marker _ _) fun _ => ?_
    | refine Go.NonInc.bind (noninc_skip _) fun _ => ?_
    | refine Go.NonInc.bind (noninc_skipStuffing _) fun _ => ?_

theorem safe_newPackHeader : Go.Safe newPackHeader := by
  unfold newPackHeader
  exact .bind safe_readPackFixed fun _ => .bind (safe_codeCheck _ _) fun _ =>
    .bind (.opt (.map _ safe_readSystemHeader)) fun _ => .pure _
theorem noninc_newPackHeader : Go.NonInc BR.size newPackHeader := by
  unfold newPackHeader
  exact Go.NonInc.bind noninc_readPackFixed fun _ => Go.NonInc.bind (noninc_codeCheck _ _) fun _ =>
    Go.NonInc.bind (Go.NonInc.opt _ _ (Go.NonInc.map _ noninc_readSystemHeader)) fun _ => Go.NonInc.pure _

theorem newPacket_returns (s : BR) : (newPacket s).1 ≠ .hang := by
  have := PES.next_nohang ⟨{}, s⟩
  unfold newPacket
  cases h : PES.Packet.next ⟨{}, s⟩ with
  | mk r t => rw [h] at this; cases r <;> simp_all
theorem newPacket_dec {p : PES.Packet} {s b : BR} (h : newPacket s = (.ok p, b)) : b.size + 48 ≤ s.size := by
  unfold newPacket at h
  cases hn : PES.Packet.next ⟨{}, s⟩ with
  | mk r t =>
    rw [hn] at h
    cases r with
    | ok u =>
      simp only [Prod.mk.injEq] at h
      obtain ⟨_, rfl⟩ := h
      exact PES.next_dec hn
    | err e => cases h
    | panic => cases h
    | hang => cases h

theorem step_returns : ∀ (f k : Nat) (out : List UInt8) (r : PackReader), r.br.size < f →
    (PackReader.step f k out r).1 ≠ .hang := by
  intro f
  induction f with
  | zero => intro k out r h; omega
  | succ f ih =>
    intro k out r hf
    have more : ∀ r1 : PackReader, r1.br.size ≤ r.br.size →
        (PackReader.more (PackReader.step f) k out r1).1 ≠ .hang := by
      intro r1 h1
      unfold PackReader.more
      have := newPacket_returns r1.br
      cases hn : newPacket r1.br with
      | mk x b =>
        rw [hn] at this
        cases x with
        | ok p =>
          simp only
          split
          · simp
          · exact ih _ _ _ (by have := newPacket_dec hn; simp only; omega)
        | err e => simp
        | panic => simp
        | hang => simp at this
    unfold PackReader.step
    rcases Nat.lt_or_ge r.br.bits.length 32 with h | h
    · rw [BR.peek_short h]; simp
    · rw [BR.peek_ok h]
      simp only
      split
      · simp
      · split
        · have h1 := safe_newPackHeader r.br
          have h2 := noninc_newPackHeader r.br
          cases hn : newPackHeader r.br with
          | mk x b =>
            rw [hn] at h1 h2
            cases x with
            | ok p => exact more _ h2
            | err e => simp
            | panic => simp
            | hang => simp at h1
        · exact more _ (Nat.le_refl _)

/-- `Read` returns (or panics, inside the PES header parser). -/
theorem read_returns (n : Nat) (r : PackReader) : (PackReader.read n r).1 ≠ .hang := by
  unfold PackReader.read
  split
  · simp
  · exact step_returns _ _ _ _ (Nat.lt_succ_self _)

end Mpeg.PS
