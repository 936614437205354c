import Verif.StateFiles
import Mathlib.Tactic.Ring
import Mathlib.Tactic.Linarith

/-!
# State files: property theorems (C22, C23)

Specification vocabulary: `lastSaved` is the last call of a history with the given key.
-/

namespace Verif.StateFiles

/-- Last save in a history with the same field, timestep and rank. -/
def lastSaved (h : List SaveCall) (field : List Char) (timestep rank : ℤ) : Option SaveCall :=
  (h.filter fun c => c.field = field ∧ c.timestep = timestep ∧ c.rank = rank).getLast?

/-! ### helper lemmas -/

private theorem digitChar_ne {d : ℕ} (h : d < 10) : Nat.digitChar d ≠ '_' ∧ Nat.digitChar d ≠ '-' := by
  interval_cases d <;> decide

private theorem digitChar_inj {a b : ℕ} (ha : a < 10) (hb : b < 10)
    (h : Nat.digitChar a = Nat.digitChar b) : a = b := by
  interval_cases a <;> interval_cases b <;> first | rfl | (exfalso; revert h; decide)

private theorem map_digitChar_inj : ∀ (l m : List ℕ), (∀ d ∈ l, d < 10) → (∀ d ∈ m, d < 10) →
    l.map Nat.digitChar = m.map Nat.digitChar → l = m
  | [], [], _, _, _ => rfl
  | [], _ :: _, _, _, h => by simp at h
  | _ :: _, [], _, _, h => by simp at h
  | a :: l, b :: m, ha, hb, h => by
    simp only [List.map_cons, List.cons.injEq] at h
    rw [digitChar_inj (ha a (by simp)) (hb b (by simp)) h.1,
      map_digitChar_inj l m (fun d hd => ha d (by simp [hd])) (fun d hd => hb d (by simp [hd])) h.2]

private theorem natToString_no (n : ℕ) : '_' ∉ natToString n ∧ '-' ∉ natToString n := by
  unfold natToString
  split
  · decide
  · constructor
    all_goals
      intro h
      simp only [List.mem_map, List.mem_reverse] at h
      obtain ⟨d, hd, e⟩ := h
      have hd' : d < 10 := Nat.digits_lt_base (by norm_num) hd
      first | exact (digitChar_ne hd').1 e | exact (digitChar_ne hd').2 e

private theorem natToString_ne_nil (n : ℕ) : natToString n ≠ [] := by
  unfold natToString
  split
  · decide
  · rename_i h
    simp [Nat.digits_ne_nil_iff_ne_zero.mpr h]

private theorem natToString_inj {a b : ℕ} (h : natToString a = natToString b) : a = b := by
  have zero : ∀ c : ℕ, c ≠ 0 → ((Nat.digits 10 c).reverse).map Nat.digitChar ≠ ['0'] := by
    intro c hc e
    have : ((Nat.digits 10 c).reverse).map Nat.digitChar = [0].map Nat.digitChar := e
    have := map_digitChar_inj _ _ (fun d hd => Nat.digits_lt_base (by norm_num) (List.mem_reverse.mp hd))
      (by simp) this
    have h2 : Nat.digits 10 c = [0] := by
      have := congrArg List.reverse this; simpa using this
    have := Nat.ofDigits_digits 10 c
    rw [h2] at this; simp at this; exact hc this.symm
  unfold natToString at h
  split at h <;> split at h
  · omega
  · exact absurd h.symm (zero b ‹_›)
  · exact absurd h (zero a ‹_›)
  · have := map_digitChar_inj _ _
      (fun d hd => Nat.digits_lt_base (by norm_num) (List.mem_reverse.mp hd))
      (fun d hd => Nat.digits_lt_base (by norm_num) (List.mem_reverse.mp hd)) h
    exact Nat.digits.injective 10 (List.reverse_injective this)

private theorem intToString_no (n : ℤ) : '_' ∉ intToString n := by
  cases n with
  | ofNat n => exact (natToString_no n).1
  | negSucc n =>
    simp only [intToString, List.mem_cons, not_or]
    exact ⟨by decide, (natToString_no _).1⟩

private theorem intToString_inj {a b : ℤ} (h : intToString a = intToString b) : a = b := by
  cases a with
  | ofNat a =>
    cases b with
    | ofNat b => rw [natToString_inj h]
    | negSucc b =>
      exfalso
      have : '-' ∈ natToString a := by rw [show natToString a = _ from h]; simp [intToString]
      exact (natToString_no a).2 this
  | negSucc a =>
    cases b with
    | ofNat b =>
      exfalso
      have : '-' ∈ natToString b := by rw [show natToString b = _ from h.symm]; simp [intToString]
      exact (natToString_no b).2 this
    | negSucc b =>
      simp only [intToString, List.cons.injEq, true_and] at h
      have := natToString_inj h
      rw [show a = b by omega]

private theorem split_at (x : Char) : ∀ (a a' b b' : List Char), x ∉ b → x ∉ b' →
    a ++ x :: b = a' ++ x :: b' → a = a' ∧ b = b' := by
  intro a
  induction a with
  | nil =>
    intro a' b b' hb hb' h
    cases a' with
    | nil => simpa using h
    | cons c a' =>
      exfalso
      simp only [List.nil_append, List.cons_append, List.cons.injEq] at h
      exact hb (by rw [h.2]; simp)
  | cons c a ih =>
    intro a' b b' hb hb' h
    cases a' with
    | nil =>
      exfalso
      simp only [List.nil_append, List.cons_append, List.cons.injEq] at h
      exact hb' (by rw [← h.2]; simp)
    | cons c' a' =>
      simp only [List.cons_append, List.cons.injEq] at h
      obtain ⟨rfl, h⟩ := h
      obtain ⟨rfl, rfl⟩ := ih a' b b' hb hb' h
      exact ⟨rfl, rfl⟩

private theorem leBytes_length (n x : ℕ) : (leBytes n x).length = n := by
  induction n generalizing x with
  | zero => rfl
  | succ n ih => simp [leBytes, ih]

private theorem leNat_leBytes (n x : ℕ) : leNat (leBytes n x) = x % 256 ^ n := by
  induction n generalizing x with
  | zero => simp [leBytes, leNat, Nat.mod_one]
  | succ n ih =>
    simp only [leBytes, leNat, ih, BitVec.toNat_ofNat]
    rw [show (256 : ℕ) ^ (n + 1) = 256 * 256 ^ n by rw [pow_succ, mul_comm], Nat.mod_mul]

private theorem doubleOf_bytes (x : BitVec 64) : doubleOf (doubleBytes x) = x := by
  unfold doubleOf doubleBytes
  rw [leNat_leBytes, Nat.mod_eq_of_lt (by have := x.isLt; norm_num; omega)]
  simp

private theorem intOf_bytes (x : BitVec 32) : intOf (intBytes x) = x := by
  unfold intOf intBytes
  rw [leNat_leBytes, Nat.mod_eq_of_lt (by have := x.isLt; norm_num; omega)]
  simp

private theorem doubleBytes_length (x : BitVec 64) : (doubleBytes x).length = 8 := leBytes_length _ _
private theorem intBytes_length (x : BitVec 32) : (intBytes x).length = 4 := leBytes_length _ _

private theorem flat_length (l : List (BitVec 64)) : (l.flatMap doubleBytes).length = 8 * l.length := by
  induction l with
  | nil => rfl
  | cons a l ih => simp only [List.flatMap_cons, List.length_append, ih, doubleBytes_length,
      List.length_cons]; omega

private theorem doublesOf_flat (l : List (BitVec 64)) :
    doublesOf l.length (l.flatMap doubleBytes) = l := by
  induction l with
  | nil => rfl
  | cons a l ih =>
    simp only [List.length_cons, doublesOf, List.flatMap_cons]
    rw [List.take_append_of_le_length (by rw [doubleBytes_length]),
      List.take_of_length_le (by rw [doubleBytes_length]), doubleOf_bytes]
    rw [List.drop_append, doubleBytes_length, List.drop_of_length_le (by rw [doubleBytes_length])]
    simp [ih]

private theorem read_exact (a b dst : List Byte) (h : dst.length = a.length) :
    (⟨a ++ b, true⟩ : IStream).read dst = (a, ⟨b, true⟩) := by
  simp only [IStream.read, if_true, h, List.take_left, List.drop_left, Prod.mk.injEq,
    IStream.mk.injEq]
  refine ⟨?_, trivial, by simp⟩
  rw [List.drop_of_length_le (by simp [h])]; simp

/-- A file with exactly the bytes of one save reads back as that save. -/
private theorem read_saved (fs : FS) (field : List Char) (ts rk : ℤ) (t0 : BitVec 64)
    (junk : ℕ → List (BitVec 64)) (hj : ∀ n, (junk n).length = n)
    (time : BitVec 64) (data : List (BitVec 64)) (hsz : data.length < 2 ^ 31)
    (hfs : fs (fileName .binary field ts rk) = some (saveBytes time data)) :
    read fs field ts rk t0 junk = .ok time data := by
  have hint : (BitVec.ofNat 32 data.length).toInt = data.length := by
    rw [BitVec.toInt_eq_toNat_of_lt] <;> rw [BitVec.toNat_ofNat, Nat.mod_eq_of_lt (by omega)]
    omega
  unfold read openFile
  rw [hfs]
  simp only [saveBytes, List.append_assoc]
  rw [read_exact _ _ _ (by rw [doubleBytes_length, doubleBytes_length])]
  simp only
  rw [read_exact _ _ _ (by rw [intBytes_length, intBytes_length])]
  simp only [intOf_bytes, hint]
  rw [if_neg (by omega)]
  simp only [Int.toNat_natCast]
  have := read_exact (data.flatMap doubleBytes) [] ((junk data.length).flatMap doubleBytes)
    (by rw [flat_length, flat_length, hj])
  rw [List.append_nil] at this
  rw [this]
  simp [doubleOf_bytes, doublesOf_flat]

private theorem saves_frame (h : List SaveCall) (fs : FS) (p : List Char)
    (hp : ∀ c ∈ h, p ≠ fileName .binary c.field c.timestep c.rank) : saves fs h p = fs p := by
  induction h generalizing fs with
  | nil => rfl
  | cons c h ih =>
    simp only [saves, List.foldl_cons] at ih ⊢
    rw [ih _ (fun d hd => hp d (by simp [hd]))]
    simp [save, hp c (by simp)]

/-! ### C22 -/

/-- **C22** Two saves use the same file name only if they come from the same logger and agree in field
name, timestep and rank — for every field name, including names containing underscores,
digits or slashes, and for negative timesteps. -/
theorem C22_filenames_injective (l l' : Logger) (f f' : List Char) (ts ts' rk rk' : ℤ)
    (h : fileName l f ts rk = fileName l' f' ts' rk') : l = l' ∧ f = f' ∧ ts = ts' ∧ rk = rk' := by
  have hs : "_".toList = ['_'] := by decide
  unfold fileName at h
  rw [hs] at h
  simp only [List.append_assoc, List.cons_append, List.nil_append] at h
  rw [show ∀ (a b c d e : List Char), a ++ (b ++ (c ++ ('_' :: (d ++ '_' :: e))))
      = (a ++ (b ++ (c ++ '_' :: d))) ++ '_' :: e by intros; simp,
    show ∀ (a b c d e : List Char), a ++ (b ++ (c ++ ('_' :: (d ++ '_' :: e))))
      = (a ++ (b ++ (c ++ '_' :: d))) ++ '_' :: e by intros; simp] at h
  obtain ⟨h1, h2⟩ := split_at '_' _ _ _ _ (intToString_no rk) (intToString_no rk') h
  rw [show ∀ (a b c d : List Char), a ++ (b ++ (c ++ '_' :: d)) = (a ++ (b ++ c)) ++ '_' :: d by
      intros; simp,
    show ∀ (a b c d : List Char), a ++ (b ++ (c ++ '_' :: d)) = (a ++ (b ++ c)) ++ '_' :: d by
      intros; simp] at h1
  obtain ⟨h3, h4⟩ := split_at '_' _ _ _ _ (intToString_no ts) (intToString_no ts') h1
  have hl : l = l' := by
    have ea : Logger.ascii.dir = 'A' :: "SCIILogger".toList := by decide
    have eb : Logger.binary.dir = 'B' :: "inaryLogger/".toList := by decide
    cases l <;> cases l'
    · rfl
    · rw [ea, eb, List.cons_append, List.cons_append, List.cons.injEq] at h3
      exact absurd h3.1 (by decide)
    · rw [ea, eb, List.cons_append, List.cons_append, List.cons.injEq] at h3
      exact absurd h3.1 (by decide)
    · rfl
  subst hl
  rw [List.append_cancel_left_eq, List.append_cancel_left_eq] at h3
  exact ⟨rfl, h3, intToString_inj h4, intToString_inj h2⟩

example : fileName .binary "state".toList 12 0 = "BinaryLogger//state_12_0".toList ∧
    fileName .ascii "a_1".toList (-2) 3 = "ASCIILogger/a_1_-2_3".toList ∧
    fileName .ascii "a".toList 1 23 ≠ fileName .ascii "a_1".toList 2 3 := by decide

/-! ### C23 -/

/-- **C23** After any history of `saveState` calls (on any fields, timesteps, ranks), `readState` delivers
bit for bit the time and vector of the last save with the same field, timestep and rank, whatever the
destination held before (`size` fits in an `int`, as MFEM vectors guarantee). -/
theorem C23_read_returns_last_save (fs : FS) (h : List SaveCall)
    (hsz : ∀ c ∈ h, c.data.length < 2 ^ 31) (field : List Char) (ts rk : ℤ) (t0 : BitVec 64)
    (junk : ℕ → List (BitVec 64)) (hj : ∀ n, (junk n).length = n) (c : SaveCall)
    (hc : lastSaved h field ts rk = some c) :
    read (saves fs h) field ts rk t0 junk = .ok c.time c.data := by
  obtain ⟨pre, hpre⟩ := List.getLast?_eq_some_iff.mp hc
  obtain ⟨l₁, l₂, rfl, -, h2⟩ := List.filter_eq_append_iff.mp hpre
  obtain ⟨l₃, l₄, rfl, hno, hcc, h4⟩ := List.filter_eq_cons_iff.mp h2
  simp only [decide_eq_true_eq] at hcc
  obtain ⟨rfl, rfl, rfl⟩ := hcc
  apply read_saved _ _ _ _ _ _ hj _ _ (hsz c (by simp))
  have hsplit : saves fs (l₁ ++ (l₃ ++ c :: l₄)) = saves (save (saves fs (l₁ ++ l₃)) c.field c.timestep
      c.rank c.time c.data) l₄ := by
    simp [saves, List.foldl_append]
  rw [hsplit, saves_frame]
  · simp [save]
  · intro d hd e
    obtain ⟨-, e1, e2, e3⟩ := C22_filenames_injective _ _ _ _ _ _ _ _ e
    have : d ∈ l₄.filter fun d => decide (d.field = c.field ∧ d.timestep = c.timestep ∧ d.rank = c.rank) := by
      simp [hd, e1, e2, e3]
    rw [h4] at this
    simp at this

/-- **C23** A save disturbs no other file: reading another key gives the same result before and after. -/
theorem C23_other_keys_undisturbed (fs : FS) (c : SaveCall) (field : List Char) (ts rk : ℤ)
    (t0 : BitVec 64) (junk : ℕ → List (BitVec 64))
    (hne : ¬ (field = c.field ∧ ts = c.timestep ∧ rk = c.rank)) :
    read (saves fs [c]) field ts rk t0 junk = read fs field ts rk t0 junk := by
  have : saves fs [c] (fileName .binary field ts rk) = fs (fileName .binary field ts rk) := by
    apply saves_frame
    intro d hd e
    simp only [List.mem_singleton] at hd
    subst hd
    obtain ⟨-, h⟩ := C22_filenames_injective _ _ _ _ _ _ _ _ e
    exact hne h
  unfold read openFile
  rw [this]

/-- **C23** Reading a state that was never saved does not fail: it silently keeps the caller's time and
returns an empty vector. -/
theorem C23_missing_file_silent (fs : FS) (field : List Char) (ts rk : ℤ) (t0 : BitVec 64)
    (junk : ℕ → List (BitVec 64)) (hmiss : fs (fileName .binary field ts rk) = none) :
    read fs field ts rk t0 junk = .ok t0 [] := by
  unfold read openFile
  rw [hmiss]
  have h0 : intOf (intBytes 0#32) = 0 := intOf_bytes 0
  simp [IStream.read, doubleOf_bytes, h0, doublesOf]

/-- A two-save history meeting the hypotheses: the second save of the same key wins. -/
example : lastSaved [⟨"state".toList, 0, 0, 1, [7, 8]⟩, ⟨"adjoint".toList, 0, 0, 5, []⟩,
      ⟨"state".toList, 0, 0, 2, [9]⟩] "state".toList 0 0 = some ⟨"state".toList, 0, 0, 2, [9]⟩ ∧
    read (saves (fun _ => none) [⟨"state".toList, 0, 0, 1, [7, 8]⟩, ⟨"adjoint".toList, 0, 0, 5, []⟩,
      ⟨"state".toList, 0, 0, 2, [9]⟩]) "state".toList 0 0 77 (fun n => List.replicate n 3)
      = .ok 2 [9] := by
  refine ⟨by decide +kernel, ?_⟩
  refine C23_read_returns_last_save _ _ ?_ _ _ _ _ _ (by simp) ⟨"state".toList, 0, 0, 2, [9]⟩ ?_
  · intro c hc; simp only [List.mem_cons, List.not_mem_nil, or_false] at hc; rcases hc with rfl | rfl | rfl <;> decide
  · decide +kernel

end Verif.StateFiles
