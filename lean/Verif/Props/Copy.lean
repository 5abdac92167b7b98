import Verif.Proofs.World
import Verif.Model.Copy
import Verif.Props.Ex

/-!
# C20, C21: `copy_wide`

`Reads B es segs e rest` says what a correct reader with results `es` delivers into a buffer of `B`
bytes up to the point where a copy has to stop: the non-empty pieces `segs`, then the end of the
stream or an error (`e`), leaving the results `rest` unused.
-/

set_option linter.unusedVariables false

namespace Baokeshed.Props
open Baokeshed.Model Baokeshed.Proofs

inductive Reads (B : Nat) : List ReadEvent → List Bytes → Except IoError Unit → List ReadEvent → Prop where
  /-- no more results: end of stream -/
  | done : Reads B [] [] (.ok ()) []
  /-- `Ok(0)`: end of stream, whatever was written to the buffer -/
  | eof (junk : Bytes) (rest : List ReadEvent) : Reads B (.ok 0 junk :: rest) [] (.ok ()) rest
  /-- an error other than `Interrupted` -/
  | fail (msg : List Char) (rest : List ReadEvent) :
      Reads B (.err (.other msg) :: rest) [] (.error (.other msg)) rest
  /-- `Interrupted` is to be retried -/
  | retry {es segs e rest} : Reads B es segs e rest → Reads B (.err .interrupted :: es) segs e rest
  /-- some bytes -/
  | data {es segs e rest} (d : Bytes) : d ≠ [] → d.length ≤ B → Reads B es segs e rest →
      Reads B (.ok d.length d :: es) (d :: segs) e rest

/-- The writer accepts the pieces one after the other, going from state `w` to `w'`. -/
inductive Accepts {W : Type} (write_all : W → Bytes → R (Except IoError Unit × W)) : W → List Bytes → W → Prop where
  | nil (w) : Accepts write_all w [] w
  | cons {w w1 w2 s ss} : write_all w s = .ok (.ok (), w1) → Accepts write_all w1 ss w2 →
      Accepts write_all w (s :: ss) w2

theorem length_overwrite (b d : Bytes) (h : d.length ≤ b.length) : (overwrite b d).length = b.length := by
  simp [overwrite]; omega

theorem overwrite_take (b d : Bytes) (h : d.length ≤ b.length) : sliceTo (overwrite b d) d.length = .ok d := by
  rw [sliceTo, if_pos (by rw [length_overwrite _ _ h]; exact h), overwrite, List.take_take, Nat.min_eq_left h,
    List.take_left]

theorem copy_loop_data {W : Type} (write_all : W → Bytes → R (Except IoError Unit × W)) (buffer d : Bytes) (total : U64)
    (w w1 : W) (es : List ReadEvent) (h0 : d ≠ []) (hd : d.length ≤ buffer.length)
    (ht : total.toNat + d.length < 2 ^ 64) (hw : write_all w d = .ok (.ok (), w1)) :
    copy_loop write_all buffer total w (.ok d.length d :: es) =
      copy_loop write_all (overwrite buffer d) (total + BitVec.ofNat 64 d.length) w1 es := by
  have : 0 < d.length := List.length_pos_iff.2 h0
  have hn : (BitVec.ofNat 64 d.length).toNat = d.length := by
    rw [BitVec.toNat_ofNat, Nat.mod_eq_of_lt (by omega)]
  rw [copy_loop]
  dsimp only
  rw [if_neg (by omega), overwrite_take _ _ hd, bind_ok, hw, bind_ok]
  dsimp only
  rw [addU64, if_pos (by rw [hn]; exact ht), bind_ok]

theorem copy_loop_reads {W : Type} (write_all : W → Bytes → R (Except IoError Unit × W)) {B : Nat}
    {es : List ReadEvent} {segs : List Bytes} {e : Except IoError Unit} {rest : List ReadEvent}
    (hr : Reads B es segs e rest) : ∀ {w w' : W}, Accepts write_all w segs w' →
    ∀ (buffer : Bytes) (total : U64), buffer.length = B → total.toNat + segs.flatten.length < 2 ^ 64 →
    copy_loop write_all buffer total w es =
      .ok (e.map fun _ => total + BitVec.ofNat 64 segs.flatten.length, w', rest) := by
  induction hr with
  | done =>
    intro w w' ha b t hb ht
    cases ha
    rw [copy_loop]
    simp [Except.map]
  | eof j r =>
    intro w w' ha b t hb ht
    cases ha
    rw [copy_loop]
    simp [Except.map]
  | fail m r =>
    intro w w' ha b t hb ht
    cases ha
    rw [copy_loop]
    · simp [Except.map]
    · intro h; cases h
  | retry hr ih =>
    intro w w' ha b t hb ht
    rw [copy_loop]
    exact ih ha b t hb ht
  | @data es segs e rest d h0 hd hr ih =>
    intro w w' ha b t hb ht
    cases ha with
    | cons hw ha =>
    rw [List.flatten_cons, List.length_append] at ht ⊢
    have hn : (BitVec.ofNat 64 d.length).toNat = d.length := by
      rw [BitVec.toNat_ofNat, Nat.mod_eq_of_lt (by omega)]
    have ht' : (t + BitVec.ofNat 64 d.length).toNat = t.toNat + d.length := by
      rw [BitVec.toNat_add, hn, Nat.mod_eq_of_lt (by omega)]
    rw [copy_loop_data _ _ _ _ _ _ _ h0 (by omega) (by omega) hw,
      ih ha _ _ (by rw [length_overwrite _ _ (by omega)]; exact hb) (by rw [ht']; omega), BitVec.ofNat_add,
      BitVec.add_assoc]

/-- C20.  Whatever the reader and the writer do: if the reader delivers `segs` and then stops with
`e`, and the writer accepts all pieces, then `copy_wide` hands the writer exactly these pieces in
this order and returns their total length, or the reader's error. -/
theorem C20_copy (cfg : Config) {W : Type} (write_all : W → Bytes → R (Except IoError Unit × W)) (w w' : W)
    (es rest : List ReadEvent) (segs : List Bytes) (e : Except IoError Unit)
    (hr : Reads (COPY_BUF_LEN cfg) es segs e rest) (ha : Accepts write_all w segs w')
    (hl : segs.flatten.length < 2 ^ 64) :
    copy_wide cfg write_all es w = .ok (e.map fun _ => BitVec.ofNat 64 segs.flatten.length, w', rest) := by
  rw [copy_wide, copy_loop_reads _ hr ha _ _ List.length_replicate (by simpa using hl)]
  congr 3
  funext _
  exact BitVec.zero_add _

/-- The results `es` are the non-empty pieces `segs`, mixed with interruptions. -/
inductive Pieces (B : Nat) : List ReadEvent → List Bytes → Prop where
  | nil : Pieces B [] []
  | retry {es segs} : Pieces B es segs → Pieces B (.err .interrupted :: es) segs
  | data {es segs} (d : Bytes) : d ≠ [] → d.length ≤ B → Pieces B es segs → Pieces B (.ok d.length d :: es) (d :: segs)

theorem copy_loop_pieces {W : Type} (write_all : W → Bytes → R (Except IoError Unit × W)) {B : Nat}
    {es : List ReadEvent} {segs : List Bytes} (hr : Pieces B es segs) (rest : List ReadEvent) :
    ∀ {w w' : W}, Accepts write_all w segs w' →
    ∀ (buffer : Bytes) (total : U64), buffer.length = B → total.toNat + segs.flatten.length < 2 ^ 64 →
    ∃ buffer' total', buffer'.length = B ∧
      copy_loop write_all buffer total w (es ++ rest) = copy_loop write_all buffer' total' w' rest := by
  induction hr with
  | nil =>
    intro w w' ha b t hb ht
    cases ha
    exact ⟨b, t, hb, rfl⟩
  | retry hr ih =>
    intro w w' ha b t hb ht
    rw [List.cons_append, copy_loop]
    exact ih ha b t hb ht
  | @data es segs d h0 hd hr ih =>
    intro w w' ha b t hb ht
    cases ha with
    | cons hw ha =>
    rw [List.flatten_cons, List.length_append] at ht
    have hn : (BitVec.ofNat 64 d.length).toNat = d.length := by
      rw [BitVec.toNat_ofNat, Nat.mod_eq_of_lt (by omega)]
    have ht' : (t + BitVec.ofNat 64 d.length).toNat = t.toNat + d.length := by
      rw [BitVec.toNat_add, hn, Nat.mod_eq_of_lt (by omega)]
    rw [List.cons_append, copy_loop_data _ _ _ _ _ _ _ h0 (by omega) (by omega) hw]
    exact ih ha _ _ (by rw [length_overwrite _ _ (by omega)]; exact hb) (by rw [ht']; omega)

/-- C20.  If the writer fails on a piece, `copy_wide` returns the writer's error; the writer has been
handed exactly the pieces before and this one, and nothing more has been read. -/
theorem C20_write_error (cfg : Config) {W : Type} (write_all : W → Bytes → R (Except IoError Unit × W))
    (w w1 w2 : W) (es rest : List ReadEvent) (segs : List Bytes) (d : Bytes) (err : IoError)
    (hr : Pieces (COPY_BUF_LEN cfg) es segs) (hd0 : d ≠ []) (hd : d.length ≤ COPY_BUF_LEN cfg)
    (ha : Accepts write_all w segs w1) (hf : write_all w1 d = .ok (.error err, w2))
    (hl : segs.flatten.length < 2 ^ 64) :
    copy_wide cfg write_all (es ++ .ok d.length d :: rest) w = .ok (.error err, w2, rest) := by
  obtain ⟨b, t, hb, e⟩ := copy_loop_pieces _ hr (.ok d.length d :: rest) ha (List.replicate (COPY_BUF_LEN cfg) 0) 0
    List.length_replicate (by simpa using hl)
  have : 0 < d.length := List.length_pos_iff.2 hd0
  rw [copy_wide, e, copy_loop]
  dsimp only
  rw [if_neg (by omega), overwrite_take _ _ (by omega), bind_ok, hf]
  rfl

/-- C20.  A reader that claims to have read more than the buffer holds makes `copy_wide` panic; no
byte from outside the buffer reaches the writer. -/
theorem C20_bad_reader (cfg : Config) {W : Type} (write_all : W → Bytes → R (Except IoError Unit × W))
    (w w1 : W) (es rest : List ReadEvent) (segs : List Bytes) (n : Nat) (d : Bytes)
    (hr : Pieces (COPY_BUF_LEN cfg) es segs) (hn : COPY_BUF_LEN cfg < n)
    (ha : Accepts write_all w segs w1) (hl : segs.flatten.length < 2 ^ 64) :
    copy_wide cfg write_all (es ++ .ok n d :: rest) w = .error .bounds := by
  obtain ⟨b, t, hb, e⟩ := copy_loop_pieces _ hr (.ok n d :: rest) ha (List.replicate (COPY_BUF_LEN cfg) 0) 0
    List.length_replicate (by simpa using hl)
  rw [copy_wide, e, copy_loop]
  dsimp only
  rw [if_neg (by omega), sliceTo, if_neg (by
    have : (overwrite b d).length ≤ b.length := by rw [overwrite, List.length_take]; exact Nat.min_le_left _ _
    omega)]
  rfl

/-- `Vec<u8>` as a writer -/
def collect (v : Bytes) (s : Bytes) : R (Except IoError Unit × Bytes) := .ok (.ok (), v ++ s)

theorem collect_accepts (segs : List Bytes) (v : Bytes) : Accepts collect v segs (v ++ segs.flatten) := by
  induction segs generalizing v with
  | nil => rw [List.flatten_nil, List.append_nil]; exact .nil _
  | cons s ss ih => rw [List.flatten_cons, ← List.append_assoc]; exact .cons rfl (ih _)

/-- C20.  Copying into a vector appends exactly the bytes read, in order. -/
theorem C20_collect (cfg : Config) (v : Bytes) (es rest : List ReadEvent) (segs : List Bytes)
    (e : Except IoError Unit) (hr : Reads (COPY_BUF_LEN cfg) es segs e rest) (hl : segs.flatten.length < 2 ^ 64) :
    copy_wide cfg collect es v =
      .ok (e.map fun _ => BitVec.ofNat 64 segs.flatten.length, v ++ segs.flatten, rest) :=
  C20_copy cfg _ _ _ _ _ _ _ hr (collect_accepts segs v) hl

-- two reads with an interruption between them, then the end of the stream, then an unused result
example : Reads (COPY_BUF_LEN exSmall) [.ok 2 [1, 2], .err .interrupted, .ok 1 [3], .ok 0 [9, 9], .ok 1 [4]]
    [[1, 2], [3]] (.ok ()) [.ok 1 [4]] :=
  .data [1, 2] (by decide) (by decide) (.retry (.data [3] (by decide) (by decide) (.eof _ _)))
-- an error after one read
example : Reads (COPY_BUF_LEN exAvx2) [.ok 2 [1, 2], .err (.other ['x']), .ok 1 [3]]
    [[1, 2]] (.error (.other ['x'])) [.ok 1 [3]] :=
  .data [1, 2] (by decide) (by decide) (.fail _ _)
-- a writer that refuses the second piece
example : ∃ (write_all : Bytes → Bytes → R (Except IoError Unit × Bytes)) (w1 : Bytes),
    Accepts write_all [] [[1]] w1 ∧ write_all w1 [2] = .ok (.error (.other []), w1) :=
  ⟨fun v s => if v = [] then .ok (.ok (), v ++ s) else .ok (.error (.other []), v), [1], .cons rfl (.nil _), rfl⟩
example : Pieces (COPY_BUF_LEN exAvx2) [.err .interrupted, .ok 1 [1]] [[1]] :=
  .retry (.data [1] (by decide) (by decide) .nil)

/-! ## C21 -/

theorem hasher_accepts (cfg : Config) (m : Spec.Mode) (segs : List Bytes) (h0 : ∀ s ∈ segs, s ≠ []) :
    ∀ {bytes : Bytes} {h : Hasher}, HasherAt cfg m bytes h → bytes.length + segs.flatten.length < 2 ^ 64 →
    ∃ h', Accepts (hasherWriter cfg) h segs h' ∧ HasherAt cfg m (bytes ++ segs.flatten) h' := by
  induction segs with
  | nil => intro bytes h hh _; exact ⟨h, .nil _, by rwa [List.flatten_nil, List.append_nil]⟩
  | cons s ss ih =>
    intro bytes h hh hl
    rw [List.flatten_cons, List.length_append] at hl
    obtain ⟨h1, e1, ok1, -⟩ := hh.write_all s (by omega)
    obtain ⟨h2, a2, ok2⟩ := ih (fun s hs => h0 s (List.mem_cons_of_mem _ hs)) ok1 (by rw [List.length_append]; omega)
    refine ⟨h2, .cons (by rw [hasherWriter, e1]; rfl) a2, ?_⟩
    rwa [List.append_assoc, ← List.flatten_cons] at ok2

theorem Reads.nonempty {B : Nat} {es : List ReadEvent} {segs : List Bytes} {e : Except IoError Unit}
    {rest : List ReadEvent} (hr : Reads B es segs e rest) : ∀ s ∈ segs, s ≠ [] := by
  induction hr with
  | done => intro s h; cases h
  | eof => intro s h; cases h
  | fail => intro s h; cases h
  | retry _ ih => exact ih
  | data d h0 _ _ ih => exact List.forall_mem_cons.2 ⟨h0, ih⟩

theorem copy_hasher (cfg : Config) (m : Spec.Mode) (es rest : List ReadEvent) (segs : List Bytes)
    (e : Except IoError Unit) (hr : Reads (COPY_BUF_LEN cfg) es segs e rest) {bytes : Bytes} {h : Hasher}
    (hh : HasherAt cfg m bytes h) (hl : bytes.length + segs.flatten.length < 2 ^ 64) :
    ∃ h', copy_wide cfg (hasherWriter cfg) es h =
        .ok (e.map fun _ => BitVec.ofNat 64 segs.flatten.length, h', rest) ∧
      HasherAt cfg m (bytes ++ segs.flatten) h' := by
  obtain ⟨h', a, ok⟩ := hasher_accepts cfg m segs hr.nonempty hh hl
  exact ⟨h', C20_copy cfg _ _ _ _ _ _ _ hr a (by omega), ok⟩

/-- C21.  Copying a reader into a hasher that has already received the slices `ss` and finalizing
gives the specified hash of all bytes, however the reader cuts them up.  If the reader ends in an
error, the hasher has received exactly the bytes before it. -/
theorem C21_copy_hasher (cfg : Config) (m : Spec.Mode) (ss : List Bytes) (es rest : List ReadEvent)
    (segs : List Bytes) (e : Except IoError Unit) (hr : Reads (COPY_BUF_LEN cfg) es segs e rest)
    (hl : ss.flatten.length + segs.flatten.length < 2 ^ 64) :
    ∃ h h', (newHasher cfg m).updates cfg ss = .ok h ∧
      copy_wide cfg (hasherWriter cfg) es h = .ok (e.map fun _ => BitVec.ofNat 64 segs.flatten.length, h', rest) ∧
      h'.finalize = .ok (Spec.hash m (ss.flatten ++ segs.flatten)) := by
  obtain ⟨h, e1, hh⟩ := (HasherAt.new cfg m).updates ss (by rw [List.length_nil]; omega)
  rw [List.nil_append] at hh
  obtain ⟨h', e2, ok⟩ := copy_hasher cfg m es rest segs e hr hh hl
  exact ⟨h, h', e1, e2, ok.finalize⟩

example : ([[5], []] : List Bytes).flatten.length + ([[1, 2], [3]] : List Bytes).flatten.length < 2 ^ 64 := by decide

end Baokeshed.Props
