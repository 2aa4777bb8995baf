import Verif.Model.Ad2cp
import Mathlib.Tactic.Linarith
import Mathlib.Tactic.Ring
import Mathlib.Tactic.IntervalCases

/-!
Properties of the decoding of AD2CP records: C45, C87.
-/

namespace Dolfyn

/-! ### Packing -/

/-- The `k` bytes of a number, least significant first. -/
def Spec.encNat : ℕ → ℕ → List ℕ
  | 0, _ => []
  | k + 1, v => v % 256 :: Spec.encNat k (v / 256)

/-- Two's complement for signed formats. -/
def Spec.encVal (fmt : AdFmt) (v : ℤ) : List ℕ :=
  Spec.encNat fmt.size (v % 2 ^ (8 * fmt.size)).toNat

/-- The values a format can hold. -/
def Spec.inRange (fmt : AdFmt) (v : ℤ) : Prop :=
  if fmt.signed then -(2 ^ (8 * fmt.size - 1)) ≤ v ∧ v < 2 ^ (8 * fmt.size - 1)
  else 0 ≤ v ∧ v < 2 ^ (8 * fmt.size)

/-- `bytes` is a record holding the values `vss` (one list per field; pad bytes are arbitrary). -/
inductive Spec.Encodes : List AdField → List (List ℤ) → List ℕ → Prop
  | nil : Spec.Encodes [] [] []
  | cons {fd : AdField} {fs : List AdField} {vs : List ℤ} {vss : List (List ℤ)} {pad r : List ℕ}
      (hn : vs.length = fd.n) (h1 : 1 ≤ fd.n) (hr : ∀ v ∈ vs, Spec.inRange fd.fmt v)
      (hp : pad.length = fd.pad) (h : Spec.Encodes fs vss r) :
      Spec.Encodes (fd :: fs) (vs :: vss) (vs.flatMap (Spec.encVal fd.fmt) ++ pad ++ r)

/-- A single value is a number, several are a tuple. -/
def Spec.item : List ℤ → AdItem
  | [v] => .num v
  | vs => .tup vs

theorem encNat_length (k v : ℕ) : (Spec.encNat k v).length = k := by
  induction k generalizing v with
  | zero => rfl
  | succ k ih => simp [Spec.encNat, ih]

theorem leNat_encNat (k v : ℕ) (h : v < 256 ^ k) : leNat (Spec.encNat k v) = v := by
  induction k generalizing v with
  | zero => simp at h; simp [Spec.encNat, leNat, h]
  | succ k ih =>
    rw [Spec.encNat, leNat, ih]
    · omega
    · rw [pow_succ] at h
      exact Nat.div_lt_of_lt_mul (by linarith)

theorem encVal_length (fmt : AdFmt) (v : ℤ) : (Spec.encVal fmt v).length = fmt.size :=
  encNat_length _ _

theorem adVal_encVal (fmt : AdFmt) (v : ℤ) (h : Spec.inRange fmt v) :
    adVal fmt (Spec.encVal fmt v) = v := by
  have hl : leNat (Spec.encVal fmt v) = (v % 2 ^ (8 * fmt.size)).toNat := by
    apply leNat_encNat
    cases fmt <;> simp [AdFmt.size] <;> omega
  unfold adVal
  rw [hl]
  cases fmt <;> simp [AdFmt.size, AdFmt.signed, Spec.inRange] at h ⊢ <;> (try split) <;> omega

theorem AdFmt.size_pos (fmt : AdFmt) : 0 < fmt.size := by cases fmt <;> simp [AdFmt.size]

theorem count_of_pos (fd : AdField) (h : 1 ≤ fd.n) : fd.count = fd.n := by
  unfold AdField.count; split <;> omega

theorem adElems_encode (fmt : AdFmt) (vs : List ℤ) (r : List ℕ)
    (hr : ∀ v ∈ vs, Spec.inRange fmt v) :
    adElems fmt vs.length (vs.flatMap (Spec.encVal fmt) ++ r) = vs := by
  induction vs with
  | nil => rfl
  | cons v vs ih =>
    rw [List.length_cons, adElems, List.flatMap_cons, List.append_assoc,
      List.take_left' (encVal_length fmt v), List.drop_left' (encVal_length fmt v),
      adVal_encVal fmt v (hr v (by simp)), ih (fun w hw => hr w (by simp [hw]))]

theorem flatMap_encVal_length (fmt : AdFmt) (vs : List ℤ) :
    (vs.flatMap (Spec.encVal fmt)).length = vs.length * fmt.size := by
  induction vs with
  | nil => simp
  | cons v vs ih => rw [List.flatMap_cons, List.length_append, ih, encVal_length, List.length_cons]; ring

theorem encodes_length {fs : List AdField} {vss : List (List ℤ)} {bs : List ℕ}
    (h : Spec.Encodes fs vss bs) : bs.length = adNbyte fs := by
  induction h with
  | nil => rfl
  | @cons fd fs vs vss pad r hn h1 hr hp h ih =>
    rw [List.length_append, List.length_append, flatMap_encVal_length, hn, hp, ih]
    simp [adNbyte, AdField.bytes, count_of_pos fd h1]

theorem adUnpack_encodes {fs : List AdField} {vss : List (List ℤ)} {bs : List ℕ}
    (h : Spec.Encodes fs vss bs) : adUnpack fs bs = vss.flatten := by
  induction h with
  | nil => rfl
  | @cons fd fs vs vss pad r hn h1 hr hp h ih =>
    have hb : (vs.flatMap (Spec.encVal fd.fmt) ++ pad).length = fd.bytes := by
      rw [List.length_append, flatMap_encVal_length, hn, hp, AdField.bytes, count_of_pos fd h1]
    rw [adUnpack, List.drop_left' hb, ih, List.flatten_cons, count_of_pos fd h1, ← hn,
      List.append_assoc, adElems_encode _ _ _ hr]

theorem adGroup_encodes {fs : List AdField} {vss : List (List ℤ)} {bs : List ℕ}
    (h : Spec.Encodes fs vss bs) :
    adGroup (fs.map AdField.n) vss.flatten = .ok (vss.map Spec.item) := by
  induction h with
  | nil => rfl
  | @cons fd fs vs vss pad r hn h1 hr hp h ih =>
    rw [List.map_cons, adGroup, List.flatten_cons, List.map_cons]
    by_cases h' : fd.n = 1
    · rw [if_pos h']
      rw [h'] at hn
      obtain ⟨v, rfl⟩ := List.length_eq_one_iff.mp hn
      simp [ih, adFirst, bind, Except.bind, pure, Except.pure, Spec.item]
    · rw [if_neg h', ← hn, List.drop_left, List.take_left]
      rw [ih]
      have : Spec.item vs = .tup vs := by
        rcases vs with _ | ⟨a, _ | ⟨b, l⟩⟩
        · rfl
        · simp at hn; omega
        · rfl
      simp [bind, Except.bind, pure, Except.pure, this]

/-- **C45** (decoding). A record that holds the values `vss` according to its field list, followed by
anything, is read as exactly these values, field by field, and exactly its bytes are consumed. -/
theorem adRead_encodes {fs : List AdField} {vss : List (List ℤ)} {bs : List ℕ}
    (h : Spec.Encodes fs vss bs) (rest : List ℕ) :
    adRead fs .none (bs ++ rest) = .ok (vss.map Spec.item, rest) := by
  have hl := encodes_length h
  unfold adRead
  simp only [List.take_left' hl, List.drop_left' hl]
  rw [if_neg (by simpa using hl), adUnpack_encodes h]
  simp [adCsCheck, adGroup_encodes h, bind, Except.bind, pure, Except.pure]

/-- Non-vacuity: a header field, a signed triple and a padded byte. -/
example : Spec.Encodes [⟨.H, 0, 1⟩, ⟨.h, 0, 3⟩, ⟨.B, 2, 1⟩] [[513], [-1, 2, -300], [7]]
    [1, 2, 255, 255, 2, 0, 212, 254, 7, 99, 98] := by
  have h := Spec.Encodes.nil
  have h := Spec.Encodes.cons (fd := ⟨.B, 2, 1⟩) (vs := [7]) (pad := [99, 98]) rfl (by decide)
    (by simp [Spec.inRange, AdFmt.signed, AdFmt.size]) rfl h
  have h := Spec.Encodes.cons (fd := ⟨.h, 0, 3⟩) (vs := [-1, 2, -300]) (pad := []) rfl (by decide)
    (by simp [Spec.inRange, AdFmt.signed, AdFmt.size]) rfl h
  have h := Spec.Encodes.cons (fd := ⟨.H, 0, 1⟩) (vs := [513]) (pad := []) rfl (by decide)
    (by simp [Spec.inRange, AdFmt.signed, AdFmt.size]) rfl h
  exact h

/-- **C45** (end of file). A record that is cut off is not decoded. -/
theorem adRead_short (fs : List AdField) (cs : AdCs) (rest : List ℕ)
    (h : rest.length < adNbyte fs) : adRead fs cs rest = .error .ioError := by
  unfold adRead
  rw [if_pos (by rw [List.length_take]; omega)]

/-- A field with no elements (a profile without cells) still reads one element, and every later field
is read from the wrong place. -/
theorem adRead_zero_count_false :
    adRead [⟨.B, 0, 0⟩, ⟨.B, 0, 1⟩] .none [7, 9] = .ok ([.tup [], .num 7], []) := by
  decide

/-- **C45** (scaling). The declared scale and offset are applied as `(x + offset) * scale`. -/
theorem adLin_eq (scale offset x : ℚ) : adLin scale offset x = (x + offset) * scale := by
  unfold adLin
  split
  · rfl
  · rename_i h
    push Not at h
    rw [h.1, h.2]; ring

/-! ### Each field comes from its own bytes -/

theorem adElems_length (fmt : AdFmt) (k : ℕ) (bs : List ℕ) : (adElems fmt k bs).length = k := by
  induction k generalizing bs with
  | zero => rfl
  | succ k ih => simp [adElems, ih]

theorem adGroup_ok : ∀ (fs : List AdField) (bs : List ℕ), (∀ fd ∈ fs, 1 ≤ fd.n) →
    ∃ items, adGroup (fs.map AdField.n) (adUnpack fs bs) = .ok items ∧ items.length = fs.length ∧
      ∀ (i : ℕ) (fd : AdField), fs[i]? = some fd →
        items[i]? = some (Spec.item (adElems fd.fmt fd.n (bs.drop (adNbyte (fs.take i))))) := by
  intro fs
  induction fs with
  | nil => intro bs _; exact ⟨[], rfl, rfl, by simp⟩
  | cons fd fs ih =>
    intro bs hpos
    have hp := hpos fd (by simp)
    obtain ⟨items, h1, h2, h3⟩ := ih (bs.drop fd.bytes) (fun x hx => hpos x (by simp [hx]))
    refine ⟨Spec.item (adElems fd.fmt fd.n bs) :: items, ?_, by simp [h2], ?_⟩
    · rw [adUnpack, List.map_cons, adGroup, count_of_pos fd hp]
      have hl := adElems_length fd.fmt fd.n bs
      by_cases h' : fd.n = 1
      · rw [if_pos h']
        rw [h'] at hl ⊢
        obtain ⟨v, hv⟩ := List.length_eq_one_iff.mp hl
        simp [hv, h1, adFirst, bind, Except.bind, pure, Except.pure, Spec.item]
      · rw [if_neg h', List.drop_left' hl, List.take_left' hl, h1]
        have : Spec.item (adElems fd.fmt fd.n bs) = .tup (adElems fd.fmt fd.n bs) := by
          generalize adElems fd.fmt fd.n bs = vs at hl
          rcases vs with _ | ⟨a, _ | ⟨b, l⟩⟩
          · rfl
          · simp at hl; omega
          · rfl
        simp [bind, Except.bind, pure, Except.pure, this]
    · intro i fd' hi
      rcases i with _ | i
      · simp at hi; subst hi; simp [adNbyte]
      · rw [List.getElem?_cons_succ] at hi ⊢
        rw [h3 i fd' hi, List.drop_drop]
        simp [adNbyte]

/-- **C45** (field positions). Whatever the bytes are, a record of sufficient length is decoded, and
field number `i` is decoded from the bytes that start behind the fields before it. -/
theorem adRead_field (fs : List AdField) (rest : List ℕ) (hpos : ∀ fd ∈ fs, 1 ≤ fd.n)
    (hlen : adNbyte fs ≤ rest.length) :
    ∃ items, adRead fs .none rest = .ok (items, rest.drop (adNbyte fs)) ∧
      items.length = fs.length ∧
      ∀ (i : ℕ) (fd : AdField), fs[i]? = some fd →
        items[i]? = some (Spec.item (adElems fd.fmt fd.n
          ((rest.take (adNbyte fs)).drop (adNbyte (fs.take i))))) := by
  obtain ⟨items, h1, h2, h3⟩ := adGroup_ok fs (rest.take (adNbyte fs)) hpos
  refine ⟨items, ?_, h2, h3⟩
  unfold adRead
  rw [if_neg (by rw [List.length_take]; omega)]
  simp [adCsCheck, h1, bind, Except.bind, pure, Except.pure]

/-! ### Checksum -/

theorem adWords_append (p q : List ℕ) (hp : p.length % 2 = 0) :
    adWords (p ++ q) = adWords p ++ adWords q := by
  induction p using adWords.induct with
  | case1 a b r ih => simp at hp; simp [adWords, ih (by omega)]
  | case2 l h =>
    rcases l with _ | ⟨a, _ | ⟨b, l⟩⟩
    · simp [adWords]
    · simp at hp
    · exact absurd rfl (h a b l)

theorem adUnpack_append (fs gs : List AdField) (bs : List ℕ) :
    adUnpack (fs ++ gs) bs = adUnpack fs bs ++ adUnpack gs (bs.drop (adNbyte fs)) := by
  induction fs generalizing bs with
  | nil => simp [adUnpack, adNbyte]
  | cons fd fs ih => simp [adUnpack, ih, adNbyte, List.drop_drop]

theorem adNbyte_append (fs gs : List AdField) : adNbyte (fs ++ gs) = adNbyte fs + adNbyte gs := by
  simp [adNbyte]

/-- With the checksum as the last field, the value compared is the last word of the record. -/
theorem adUnpack_last (fs : List AdField) (p : List ℕ) (x y : ℕ) (hp : p.length = adNbyte fs) :
    (adUnpack (fs ++ [⟨.H, 0, 1⟩]) (p ++ [x, y])).getLast? = some ((x + 256 * y : ℕ) : ℤ) := by
  rw [adUnpack_append, List.drop_left' hp]
  simp [adUnpack, AdField.count, adElems, AdFmt.size, adVal, AdFmt.signed, leNat]

/-- **C45** (corruption). A record whose last field is its checksum is accepted exactly when the sum of
the other words plus 0xb58c equals the checksum modulo 65536. -/
theorem adRead_checksum_iff (fs : List AdField) (p rest : List ℕ) (x y : ℕ)
    (hp : p.length = adNbyte fs) (he : p.length % 2 = 0) (hx : x < 256) (hy : y < 256)
    (hpos : ∀ fd ∈ fs, 1 ≤ fd.n) :
    (∃ r, adRead (fs ++ [⟨.H, 0, 1⟩]) .last (p ++ [x, y] ++ rest) = .ok r) ↔
      ((adWords p).sum + 0xb58c) % 65536 = x + 256 * y := by
  have hl : (p ++ [x, y]).length = adNbyte (fs ++ [⟨.H, 0, 1⟩]) := by
    rw [adNbyte_append, List.length_append, hp]; rfl
  obtain ⟨items, hi, -⟩ := adGroup_ok (fs ++ [⟨.H, 0, 1⟩]) (p ++ [x, y])
    (by intro fd hfd; rw [List.mem_append] at hfd; rcases hfd with h | h
        · exact hpos fd h
        · simp at h; subst h; simp)
  unfold adRead
  simp only [List.take_left' hl, List.drop_left' hl]
  rw [if_neg (by simpa using hl)]
  have hlast := adUnpack_last fs p x y hp
  simp only [adCsCheck, hlast]
  rw [if_neg (by simp; omega)]
  have hw : adWords (p ++ [x, y]) = adWords p ++ [x + 256 * y] := by
    rw [adWords_append _ _ he]; rfl
  simp only [adChecksum, hw, List.sum_append, List.sum_cons, List.sum_nil]
  generalize (adWords p).sum = S
  by_cases hc : (S + 0xb58c) % 65536 = x + 256 * y
  · have : (((S + (x + 256 * y + 0) : ℕ) : ℤ) + (0xb58c - ((x + 256 * y : ℕ) : ℤ)))
        % 65536 = ((x + 256 * y : ℕ) : ℤ) := by omega
    simp only [this, hc, decide_true, if_true, bind, Except.bind]
    rw [hi]
    exact ⟨fun _ => trivial, fun _ => ⟨_, rfl⟩⟩
  · have : ¬ (((S + (x + 256 * y + 0) : ℕ) : ℤ) + (0xb58c - ((x + 256 * y : ℕ) : ℤ)))
        % 65536 = ((x + 256 * y : ℕ) : ℤ) := by omega
    simp only [this, hc]
    simp [bind, Except.bind]

/-- **C45** (corruption). Changing any single 16-bit word of a record that passes, be it data or the
checksum itself, makes the verification fail with the exception. -/
theorem adRead_checksum_detects (fs : List AdField) (p q rest : List ℕ) (x y x' y' : ℕ)
    (hl : p.length + 2 + q.length = adNbyte (fs ++ [⟨.H, 0, 1⟩])) (hp : p.length % 2 = 0)
    (hq : q.length % 2 = 0) (hpos : ∀ fd ∈ fs, 1 ≤ fd.n)
    (hb : ∀ b ∈ p ++ [x, y] ++ q ++ [x', y'], b < 256) (hne : (x, y) ≠ (x', y'))
    (hok : ∃ r, adRead (fs ++ [⟨.H, 0, 1⟩]) .last (p ++ [x, y] ++ q ++ rest) = .ok r) :
    adRead (fs ++ [⟨.H, 0, 1⟩]) .last (p ++ [x', y'] ++ q ++ rest) = .error .exception := by
  have hx : x < 256 := hb x (by simp)
  have hy : y < 256 := hb y (by simp)
  have hx' : x' < 256 := hb x' (by simp)
  have hy' : y' < 256 := hb y' (by simp)
  have hd : x + 256 * y ≠ x' + 256 * y' := by
    intro h; apply hne; ext <;> simp <;> omega
  have hn : adNbyte (fs ++ [(⟨.H, 0, 1⟩ : AdField)]) = adNbyte fs + 2 := by
    rw [adNbyte_append]; rfl
  -- failure as an exception
  suffices hs : ¬ ∃ r, adRead (fs ++ [⟨.H, 0, 1⟩]) .last (p ++ [x', y'] ++ q ++ rest) = .ok r by
    have hlen : (p ++ [x', y'] ++ q).length = adNbyte (fs ++ [⟨.H, 0, 1⟩]) := by simp; omega
    obtain ⟨items, hi, -⟩ := adGroup_ok (fs ++ [⟨.H, 0, 1⟩]) (p ++ [x', y'] ++ q)
      (by intro fd hfd; rw [List.mem_append] at hfd; rcases hfd with h | h
          · exact hpos fd h
          · simp at h; subst h; simp)
    unfold adRead at hs ⊢
    simp only [List.take_left' hlen, List.drop_left' hlen] at hs ⊢
    rw [if_neg (by simpa using hlen)] at hs ⊢
    generalize hdata : adUnpack (fs ++ [⟨.H, 0, 1⟩]) (p ++ [x', y'] ++ q) = data at hs hi ⊢
    have : data ≠ [] := by
      intro h; rw [h] at hdata
      rw [adUnpack_append] at hdata
      simp [adUnpack, adElems, AdField.count] at hdata
    obtain ⟨v, hv⟩ : ∃ v, data.getLast? = some v := by
      rcases h : data.getLast? with _ | v
      · exact absurd (List.getLast?_eq_none_iff.mp h) this
      · exact ⟨v, rfl⟩
    simp only [adCsCheck, hv] at hs ⊢
    rw [if_neg (by simp; omega)] at hs ⊢
    by_cases hc : adChecksum v v (p ++ [x', y'] ++ q) = true
    · exfalso; apply hs
      rw [if_pos hc]
      refine ⟨(items, rest), ?_⟩
      simp only [bind, Except.bind]
      rw [hi]; rfl
    · rw [if_neg hc]; rfl
  -- the word sums
  rcases List.eq_nil_or_concat q with rfl | ⟨q', z, rfl⟩
  · -- the checksum itself is changed
    have hp' : p.length = adNbyte fs := by simp at hl; omega
    rw [List.append_nil] at hok ⊢
    rw [adRead_checksum_iff fs p rest x y hp' hp hx hy hpos] at hok
    rw [adRead_checksum_iff fs p rest x' y' hp' hp hx' hy' hpos]
    omega
  · rcases List.eq_nil_or_concat q' with rfl | ⟨q'', w, rfl⟩
    · simp at hq
    · simp only [List.concat_eq_append, List.append_assoc, List.length_append, List.length_cons,
        List.length_nil] at hl hq hok hb ⊢
      have hz : z < 256 := hb z (by simp)
      have hw : w < 256 := hb w (by simp)
      have e1 : ∀ a b : ℕ, p ++ ([a, b] ++ (q'' ++ ([w] ++ ([z] ++ rest)))) =
          (p ++ [a, b] ++ q'') ++ [w, z] ++ rest := by intro a b; simp
      rw [e1] at hok ⊢
      have hlen : ∀ a b : ℕ, (p ++ [a, b] ++ q'').length = adNbyte fs := by
        intro a b; simp; omega
      have hev : ∀ a b : ℕ, (p ++ [a, b] ++ q'').length % 2 = 0 := by
        intro a b; simp; omega
      have hws : ∀ a b : ℕ, adWords (p ++ [a, b] ++ q'') =
          adWords p ++ (a + 256 * b) :: adWords q'' := by
        intro a b
        rw [List.append_assoc, adWords_append _ _ hp]; rfl
      rw [adRead_checksum_iff fs _ rest w z (hlen x y) (hev x y) hw hz hpos, hws] at hok
      rw [adRead_checksum_iff fs _ rest w z (hlen x' y') (hev x' y') hw hz hpos, hws]
      simp only [List.sum_append, List.sum_cons] at hok ⊢
      omega

/-- Non-vacuity: a header with its checksum passes. -/
example : ∃ r, adRead adHeader .last ([165, 10, 21, 16] ++ [4, 0] ++ [1, 2, 0x4b, 0xd2] ++ [])
    = .ok r := ⟨([.num 165, .num 10, .num 21, .num 16, .num 4, .num 513, .num 0xd24b], []), by decide⟩

/-- The reader of a file asks for no verification: a header of sufficient length is accepted whatever
its checksum says (`_read_hdr` passes `do_cs=False`, dolfyn/io/nortek2.py:265-269). -/
theorem header_accepted_unchecked (rest : List ℕ) (h : 10 ≤ rest.length) :
    ∃ items, adRead adHeader .off rest = .ok (items, rest.drop 10) := by
  have hn : adNbyte adHeader = 10 := by decide
  obtain ⟨items, hi, -⟩ := adGroup_ok adHeader (rest.take 10) (by decide)
  refine ⟨items, ?_⟩
  unfold adRead
  rw [hn, if_neg (by rw [List.length_take]; omega)]
  have hl : ¬ (rest.take 10).length % 2 = 1 := by rw [List.length_take, min_eq_left h]; decide
  simp only [adCsCheck]
  rw [if_neg hl]
  simp [hi, bind, Except.bind, pure, Except.pure]

/-! ### The index and the data reader agree -/

theorem u32_of_field (body : List ℕ) (k n : ℕ) (h : k + 4 ≤ n) (hn : n ≤ body.length)
    : Spec.item (adElems .I 1 ((body.take n).drop k)) = .num (u32 body k) := by
  have g : ∀ j, j < 4 → ((body.take n).drop k)[j]? = some (body.getD (k + j) 0) := by
    intro j hj
    rw [List.getElem?_drop, List.getElem?_take_of_lt (by omega), List.getD_eq_getElem?_getD,
      List.getElem?_eq_getElem (by omega)]
    rfl
  have e : ((body.take n).drop k).take 4 =
      [body.getD k 0, body.getD (k + 1) 0, body.getD (k + 2) 0, body.getD (k + 3) 0] := by
    apply List.ext_getElem?
    intro j
    by_cases hj : j < 4
    · rw [List.getElem?_take_of_lt hj, g j hj]
      interval_cases j <;> rfl
    · rw [List.getElem?_eq_none (by rw [List.length_take]; omega),
        List.getElem?_eq_none (by simp; omega)]
  simp only [adElems, AdFmt.size, e, Spec.item, adVal, AdFmt.signed, leNat, u32, u16]
  congr 1
  push_cast
  simp
  ring

theorem u16_of_field (body : List ℕ) (k n : ℕ) (h : k + 2 ≤ n) (hn : n ≤ body.length)
    : Spec.item (adElems .H 1 ((body.take n).drop k)) = .num (u16 body k) := by
  have g : ∀ j, j < 2 → ((body.take n).drop k)[j]? = some (body.getD (k + j) 0) := by
    intro j hj
    rw [List.getElem?_drop, List.getElem?_take_of_lt (by omega), List.getD_eq_getElem?_getD,
      List.getElem?_eq_getElem (by omega)]
    rfl
  have e : ((body.take n).drop k).take 2 = [body.getD k 0, body.getD (k + 1) 0] := by
    apply List.ext_getElem?
    intro j
    by_cases hj : j < 2
    · rw [List.getElem?_take_of_lt hj, g j hj]
      interval_cases j <;> rfl
    · rw [List.getElem?_eq_none (by rw [List.length_take]; omega),
        List.getElem?_eq_none (by simp; omega)]
  simp only [adElems, AdFmt.size, e, Spec.item, adVal, AdFmt.signed, leNat, u16]
  congr 1

theorem adNbyte_mono_take (fs : List AdField) (i j : ℕ) (h : i ≤ j) :
    adNbyte (fs.take i) ≤ adNbyte (fs.take j) := by
  have : fs.take j = fs.take i ++ (fs.take j).drop i := by
    have := List.take_append_drop i (fs.take j)
    rw [List.take_take, min_eq_left h] at this
    exact this.symm
  rw [this, adNbyte_append]; omega

/-- **C87** (velocity, altimeter and echo records). For every field list that starts with the burst
header, the configuration word, the beam/cell word and the ensemble counter that the data reader finds
are those that the index takes from the same record. -/
theorem index_agrees_burst (tail : List AdField) (body : List ℕ) (id : ℕ) (hid : id ≠ 23)
    (hpos : ∀ fd ∈ tail, 1 ≤ fd.n) (hlen : adNbyte (adBurstHdr ++ tail) ≤ body.length) :
    ∃ items r, adRead (adBurstHdr ++ tail) .none body = .ok (items, r) ∧
      items[2]? = some (.num (u16 body 2)) ∧ items[17]? = some (.num (u16 body 30)) ∧
      items[35]? = some (.num (u32 body (32 + adSeek id))) := by
  obtain ⟨items, h1, -, h3⟩ := adRead_field (adBurstHdr ++ tail) body
    (by intro fd hfd; rw [List.mem_append] at hfd; rcases hfd with h | h
        · revert fd; decide
        · exact hpos fd h) hlen
  have hk : ∀ k v, k ≤ adBurstHdr.length → adNbyte (adBurstHdr.take k) = v →
      adNbyte ((adBurstHdr ++ tail).take k) = v := by
    intro k v hk hv
    rw [List.take_append_of_le_length hk, hv]
  have hn : 76 ≤ adNbyte (adBurstHdr ++ tail) := by
    rw [adNbyte_append]
    have : adNbyte adBurstHdr = 76 := by decide
    omega
  have hs : 32 + adSeek id = 72 := by unfold adSeek; rw [if_neg hid]
  refine ⟨items, _, h1, ?_, ?_, ?_⟩
  · rw [h3 2 ⟨.H, 0, 1⟩ rfl, hk 2 2 (by decide) (by decide),
      u16_of_field _ _ _ (by omega) hlen]
  · rw [h3 17 ⟨.H, 0, 1⟩ rfl, hk 17 30 (by decide) (by decide),
      u16_of_field _ _ _ (by omega) hlen]
  · rw [h3 35 ⟨.I, 0, 1⟩ rfl, hk 35 72 (by decide) (by decide),
      u32_of_field _ _ _ (by omega) hlen, hs]

/-- **C87** (bottom track records). -/
theorem index_agrees_bt (tail : List AdField) (body : List ℕ)
    (hpos : ∀ fd ∈ tail, 1 ≤ fd.n) (hlen : adNbyte (adBtHdr ++ tail) ≤ body.length) :
    ∃ items r, adRead (adBtHdr ++ tail) .none body = .ok (items, r) ∧
      items[2]? = some (.num (u16 body 2)) ∧ items[17]? = some (.num (u16 body 30)) ∧
      items[34]? = some (.num (u32 body (32 + adSeek 23))) := by
  obtain ⟨items, h1, -, h3⟩ := adRead_field (adBtHdr ++ tail) body
    (by intro fd hfd; rw [List.mem_append] at hfd; rcases hfd with h | h
        · revert fd; decide
        · exact hpos fd h) hlen
  have hk : ∀ k v, k ≤ adBtHdr.length → adNbyte (adBtHdr.take k) = v →
      adNbyte ((adBtHdr ++ tail).take k) = v := by
    intro k v hk hv
    rw [List.take_append_of_le_length hk, hv]
  have hn : 78 ≤ adNbyte (adBtHdr ++ tail) := by
    rw [adNbyte_append]
    have : adNbyte adBtHdr = 78 := by decide
    omega
  refine ⟨items, _, h1, ?_, ?_, ?_⟩
  · rw [h3 2 ⟨.H, 0, 1⟩ rfl, hk 2 2 (by decide) (by decide),
      u16_of_field _ _ _ (by omega) hlen]
  · rw [h3 17 ⟨.H, 0, 1⟩ rfl, hk 17 30 (by decide) (by decide),
      u16_of_field _ _ _ (by omega) hlen]
  · rw [h3 34 ⟨.I, 0, 1⟩ rfl, hk 34 74 (by decide) (by decide),
      u32_of_field _ _ _ (by omega) hlen]
    rfl

/-- **C87** (size of the records). The number of bytes a velocity record definition reads, from the
flags of its configuration word and its numbers of beams and cells. -/
theorem adBurstStruct_nbyte (config nb nc : ℕ) (fs : List AdField) (hb : 1 ≤ nb) (hc : 1 ≤ nc)
    (h : adBurstStruct config nb nc = .ok fs) :
    getbit config 11 = false ∧ (∀ fd ∈ fs, 1 ≤ fd.n) ∧ (∃ tail, fs = adBurstHdr ++ tail) ∧
    adNbyte fs = 76 + (if getbit config 5 then 2 * (nb * nc) else 0)
      + (if getbit config 6 then nb * nc else 0) + (if getbit config 7 then nb * nc else 0)
      + (if getbit config 8 then 8 else 0) + (if getbit config 10 then 20 else 0)
      + (if getbit config 9 then 8 else 0) + (if getbit config 12 then 64 else 0)
      + (if getbit config 13 then nc else 0) + (if getbit config 14 then 32 else 0) := by
  unfold adBurstStruct at h
  have hbc : 1 ≤ nb * nc := Nat.mul_pos hb hc
  by_cases h11 : getbit config 11 = true
  · rw [if_pos h11] at h; cases h
  · rw [if_neg h11] at h
    replace h := Except.ok.inj h
    have c1 : ∀ fmt, AdField.count ⟨fmt, 0, nb * nc⟩ = nb * nc := fun _ => count_of_pos _ hbc
    have c2 : ∀ fmt, AdField.count ⟨fmt, 0, nc⟩ = nc := fun _ => count_of_pos _ hc
    refine ⟨by simpa using h11, ?_, ⟨_, by rw [← h]; simp only [List.append_assoc]; rfl⟩, ?_⟩
    · rw [← h]
      intro fd hfd
      simp only [List.mem_append, or_assoc] at hfd
      have e : ∀ (b : Bool) (l : List AdField), fd ∈ (if b = true then l else []) → fd ∈ l := by
        intro b l hm; cases b
        · simp at hm
        · simpa using hm
      have hA : ∀ x ∈ adBurstHdr ++ adAhrs, 1 ≤ x.n := by decide
      rcases hfd with h | h | h | h | h | h | h | h | h | h
      · exact hA fd (by simp [h])
      all_goals replace h := e _ _ h
      · simp at h; subst h; exact hbc
      · simp at h; subst h; exact hbc
      · simp at h; subst h; exact hbc
      · simp at h; rcases h with rfl | rfl | rfl <;> simp
      · simp at h; rcases h with rfl | rfl | rfl | rfl | rfl <;> simp
      · simp at h; rcases h with rfl | rfl | rfl <;> simp
      · exact hA fd (by simp [h])
      · simp at h; subst h; exact hc
      · simp at h; rcases h with rfl | rfl | rfl | rfl | rfl <;> simp
    · rw [← h]
      simp only [adNbyte_append]
      have h0 : adNbyte adBurstHdr = 76 := by decide
      have ha : adNbyte adAhrs = 64 := by decide
      have e : ∀ (b : Bool) (l : List AdField),
          adNbyte (if b = true then l else []) = if b = true then adNbyte l else 0 := by
        intro b l; cases b <;> simp [adNbyte]
      simp only [e, h0, ha]
      have n1 : adNbyte [⟨.h, 0, nb * nc⟩] = 2 * (nb * nc) := by
        simp [adNbyte, AdField.bytes, c1, AdFmt.size]; ring
      have n2 : adNbyte [⟨.B, 0, nb * nc⟩] = nb * nc := by
        simp [adNbyte, AdField.bytes, c1, AdFmt.size]
      have n3 : adNbyte [⟨.B, 0, nc⟩] = nc := by
        simp [adNbyte, AdField.bytes, c2, AdFmt.size]
      rw [n1, n2, n3]
      rfl

/-- Non-vacuity: velocity, amplitude and correlation of 4 beams and 10 cells. -/
example : ∃ fs, adBurstStruct 0xe0 4 10 = .ok fs ∧ adNbyte fs = 236 := ⟨_, rfl, by decide⟩

end Dolfyn
