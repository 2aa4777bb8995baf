import Verif.Model.AdFile
import Verif.Props.AdEarth
import Verif.Props.NortekInit
import Verif.Props.Ad2cpHead
import Verif.Props.CreateDs
import Verif.Props.Ad2cpIndexFile

/-!
C153: `read_signature` from the bytes of a file to the earth frame, with the settings in the text at its head.
-/

namespace Dolfyn

open Spec (turnCW)

/-! ### Lines -/

/-- The text of some lines, each with an end of line behind it. -/
def Spec.textOf (eol : Key) (lines : List Key) : Key := lines.flatMap (· ++ eol)

theorem splitLines_cons {c : Char} {x : Key} (hx : x ≠ []) (hc : lineBreak c = false) :
    splitLines (c :: x) = consLine c (splitLines x) := by
  cases x with
  | nil => exact absurd rfl hx
  | cons d r =>
    rw [splitLines, if_neg (by rw [hc]; decide : ¬ lineBreak c = true)]

theorem splitLines_nl (r : Key) : splitLines ('\n' :: r) = [] :: splitLines r := by
  cases r with
  | nil => rfl
  | cons d r =>
    rw [splitLines, if_pos (by decide : lineBreak '\n' = true), if_neg]
    exact fun h => absurd h.1 (by decide)

theorem splitLines_crnl (r : Key) : splitLines ('\r' :: '\n' :: r) = [] :: splitLines r := by
  rw [splitLines, if_pos (by decide : lineBreak '\r' = true), if_pos ⟨rfl, rfl⟩]

theorem splitLines_line {eol : Key} (he : eol ≠ []) (r : Key) (h0 : splitLines (eol ++ r) = [] :: splitLines r) :
    ∀ l : Key, (∀ c ∈ l, lineBreak c = false) → splitLines (l ++ (eol ++ r)) = l :: splitLines r
  | [], _ => h0
  | c :: l, hl => by
    rw [List.cons_append, splitLines_cons (by simp [he]) (hl c (by simp)),
      splitLines_line he r h0 l fun x hx => hl x (by simp [hx])]
    rfl

/-- The lines of a text. -/
theorem splitLines_textOf {eol : Key} (he : eol = ['\n'] ∨ eol = ['\r', '\n']) :
    ∀ lines : List Key, (∀ l ∈ lines, ∀ c ∈ l, lineBreak c = false) → splitLines (Spec.textOf eol lines) = lines
  | [], _ => rfl
  | l :: ls, h => by
    have ih := splitLines_textOf he ls fun x hx => h x (by simp [hx])
    have : Spec.textOf eol (l :: ls) = l ++ (eol ++ Spec.textOf eol ls) := by
      unfold Spec.textOf
      rw [List.flatMap_cons, List.append_assoc]
    rw [this, splitLines_line _ _ _ l (h l (by simp)), ih]
    · rcases he with rfl | rfl <;> simp
    · rcases he with rfl | rfl
      · exact splitLines_nl _
      · exact splitLines_crnl _

/-- A printable ASCII character. -/
def Spec.printable (c : Char) : Prop := 32 ≤ c.toNat ∧ c.toNat < 127

theorem lineBreak_printable {c : Char} (h : Spec.printable c) : lineBreak c = false := by
  unfold lineBreak
  rw [decide_eq_false_iff_not]
  obtain ⟨h1, h2⟩ := h
  simp only [List.mem_cons, List.not_mem_nil, or_false]
  omega

theorem ofNat_toNat (c : Char) : Char.ofNat c.toNat = c := Char.ofNat_toNat c

/-! ### The record with the head -/

/-- The first record of a file: a byte with the type of the text, the text, and one more byte. -/
def Spec.sigHeadRec (fam : ℕ) (cs : List ℕ) (sid last : ℕ) (text : Key) : Spec.AdRec :=
  ⟨165, 10, 160, fam, cs, sid :: (text.map Char.toNat ++ [last])⟩

theorem headLines_rec {utf8 : List ℕ → Option (List Char)} (hu : Spec.Utf8 utf8) {fam : ℕ} {cs : List ℕ} {sid last : ℕ}
    {eol : Key} (he : eol = ['\n'] ∨ eol = ['\r', '\n']) {lines : List Key} (hl : ∀ l ∈ lines, ∀ c ∈ l, Spec.printable c)
    (hok : (Spec.sigHeadRec fam cs sid last (Spec.textOf eol lines)).ok) (rest : List ℕ) :
    adHeadLines utf8 ((Spec.sigHeadRec fam cs sid last (Spec.textOf eol lines)).bytes ++ rest) = .ok lines := by
  obtain ⟨hcs, hsz, -⟩ := hok
  set text := Spec.textOf eol lines with htext
  obtain ⟨c1, c2, c3, c4, rfl⟩ : ∃ a b c d, cs = [a, b, c, d] := by
    match cs, hcs with
    | [a, b, c, d], _ => exact ⟨a, b, c, d, rfl⟩
  have hch : ∀ c ∈ text, c.toNat < 128 := by
    intro c hc
    rw [htext] at hc
    unfold Spec.textOf at hc
    obtain ⟨l, hlm, hcl⟩ := List.mem_flatMap.mp hc
    rcases List.mem_append.mp hcl with h | h
    · have := (hl l hlm c h).2
      omega
    · rcases he with rfl | rfl
      · rw [List.mem_singleton.mp h]; decide
      · rcases List.mem_cons.mp h with rfl | h
        · decide
        · rw [List.mem_singleton.mp h]; decide
  have hasc : Spec.ascii (text.map Char.toNat) = text := by
    unfold Spec.ascii
    rw [List.map_map]
    conv_rhs => rw [← List.map_id text]
    exact List.map_congr_left fun c _ => ofNat_toNat c
  have hb : (Spec.sigHeadRec fam [c1, c2, c3, c4] sid last text).bytes ++ rest =
      165 :: 10 :: 160 :: fam :: (sid :: (text.map Char.toNat ++ [last])).length % 256 ::
        (sid :: (text.map Char.toNat ++ [last])).length / 256 :: c1 :: c2 :: c3 :: c4 ::
          ((sid :: (text.map Char.toNat ++ [last])) ++ rest) := rfl
  rw [hb]
  unfold adHeadLines
  rw [if_neg (by simp), if_neg (by simp)]
  have hu16 : ∀ x y : List ℕ, ∀ m : ℕ, u16 (165 :: 10 :: 160 :: fam :: m % 256 :: m / 256 :: x) 4 = m := by
    intro x y m
    unfold u16
    simp only [List.getD_cons_succ, List.getD_cons_zero]
    omega
  rw [hu16 _ []]
  simp only [List.drop_succ_cons, List.drop_zero]
  rw [List.take_left']
  swap
  · rfl
  simp only
  rw [List.dropLast_concat, nkText_ascii hu, hasc]
  · simp only
    rw [htext, splitLines_textOf he lines fun l hlm c hc => lineBreak_printable (hl l hlm c hc)]
  · intro b hb
    obtain ⟨c, hc, rfl⟩ := List.mem_map.mp hb
    exact hch c hc

/-! ### The settings -/

/-- Items of a command, and their text. -/
def Spec.itemsText (its : List (Key × Key)) (text : Key) : Prop :=
  its ≠ [] ∧ (its.map Prod.fst).Nodup ∧ (∀ p ∈ its, '=' ∉ p.1 ∧ '=' ∉ p.2 ∧ ',' ∉ p.1 ∧ ',' ∉ p.2) ∧
    text = Spec.joined ',' (its.map fun p => p.1 ++ '=' :: p.2)

/-- The number that a text stands for. -/
def Spec.numeral (pInt : Key → Option ℤ) (pFloat : Key → Option ℚ) (t : Key) (q : ℚ) : Prop :=
  (∃ z, pInt t = some z ∧ q = z) ∨ pInt t = none ∧ pFloat t = some q

/-- The commands at the head of a Signature file: every line has a name, and a text behind a comma. There are one line with
the instrument, several with the beams, and one each with the plan of the bursts and the beam matrix. The commands with `GET` are
there once and consist of items. No other command has a name that becomes one of these when the letters `G`, `E` and `T` at
its beginning are taken away. -/
structure Spec.SigHead (pInt : Key → Option ℤ) (pFloat : Key → Option ℚ) (cmds : List (Key × Key)) (rows : List (List ℚ))
    (theta : ℤ) (fs : ℚ) : Prop where
  chars : ∀ c ∈ cmds, ∀ x ∈ c.1 ++ ',' :: c.2, Spec.printable x
  names : ∀ c ∈ cmds, ',' ∉ c.1
  gets : ∀ c ∈ cmds, "GET".toList <+: c.1 → Spec.textsOf cmds c.1 = [c.2] ∧ ∃ its, Spec.itemsText its c.2
  clash : ∀ c ∈ cmds, ∀ n ∈ ["ID", "BEAMCFGLIST", "BURST", "XFBURST"], ∀ p : Key, (∀ x ∈ p, x ∈ ['G', 'E', 'T']) →
    c.1 = "GET".toList ++ (p ++ n.toList) → p = [] ∧ n ∈ ["BURST", "XFBURST"]
  bare : ∀ c ∈ cmds, c.1 ≠ "BURST".toList ∧ c.1 ≠ "XFBURST".toList
  ident : ∃ digits rest, Spec.textsOf cmds "ID".toList = ["STR=\"Signature".toList ++ (digits ++ '"' :: rest)] ∧
    (∀ x ∈ digits, x ∈ "0123456789".toList) ∧ (rest = [] ∨ ∃ r, rest = ',' :: r)
  beams : ∃ d1 d2 rest second more, Spec.textsOf cmds "BEAMCFGLIST".toList =
    ("BEAM=1,THETA=".toList ++ d1 :: d2 :: rest) :: second :: more ∧ pInt [d1, d2] = some theta
  rate : ∃ its text s, Spec.textsOf cmds ("GET".toList ++ "BURST".toList) = [text] ∧ Spec.itemsText its text ∧
    ("SR".toList, s) ∈ its ∧ Spec.numeral pInt pFloat s fs
  matrix : ∃ its text r c, Spec.textsOf cmds ("GET".toList ++ "XFBURST".toList) = [text] ∧ Spec.itemsText its text ∧
    ("ROWS".toList, r) ∈ its ∧ pInt r = some (rows.length : ℤ) ∧ ("COLS".toList, c) ∈ its ∧ pInt c = some (rows.length : ℤ) ∧
    ∀ i < rows.length, ∀ j < rows.length, ∃ t, ((matName i j).toList, t) ∈ its ∧
      Spec.numeral pInt pFloat t ((rows.getD i []).getD j 0)
  square : ∀ r ∈ rows, r.length = rows.length

theorem get_strip {k n : Key} (h : "GET".toList <+: k) (hs : lstripGet k = n) :
    ∃ p : Key, (∀ x ∈ p, x ∈ ['G', 'E', 'T']) ∧ k = "GET".toList ++ (p ++ n) := by
  obtain ⟨r, rfl⟩ := h
  have e : "GET".toList ++ r = 'G' :: 'E' :: 'T' :: r := rfl
  unfold lstripGet at hs
  rw [e, List.dropWhile_cons_of_pos (by decide), List.dropWhile_cons_of_pos (by decide),
    List.dropWhile_cons_of_pos (by decide)] at hs
  refine ⟨r.takeWhile fun c => c = 'G' || c = 'E' || c = 'T', fun x hx => ?_, ?_⟩
  · have := List.mem_takeWhile_imp hx
    simpa [or_assoc] using this
  · rw [← hs, List.takeWhile_append_dropWhile]

theorem keyIn_absent {s : String} {k : Key} {x : Char} (hx : x ∈ s.toList) (hk : x ∉ k) : keyIn s k = false :=
  keyIn_false fun h => hk (h.subset hx)

theorem adInst_signature {digits : Key} (hd : ∀ x ∈ digits, x ∈ "0123456789".toList) :
    adInst ("Signature".toList ++ digits) = .signature := by
  unfold adInst
  have hm : ("Signature".toList ++ digits).map Char.toLower = "signature".toList ++ digits := by
    rw [List.map_append]
    congr 1
    conv_rhs => rw [← List.map_id digits]
    refine List.map_congr_left fun x hx => ?_
    have hx' := hd x hx
    generalize hD : "0123456789".toList = D at hx'
    have : ∀ y ∈ "0123456789".toList, Char.toLower y = id y := by decide +kernel
    rw [hD] at this
    exact this x hx'
  rw [hm]
  have hno : ∀ x : Char, x ∉ "nortek ".toList → x ∉ "signature".toList → x ∉ "0123456789".toList →
      x ∉ "nortek ".toList ++ ("signature".toList ++ digits) := by
    intro x h1 h2 h3 h
    rcases List.mem_append.mp h with h | h
    · exact h1 h
    · rcases List.mem_append.mp h with h | h
      · exact h2 h
      · exact h3 (hd x h)
  unfold rotModule
  rw [keyIn_absent (x := 'v') (by decide +kernel) (hno 'v' (by decide +kernel) (by decide +kernel) (by decide +kernel)),
    keyIn_absent (x := 'w') (by decide +kernel) (hno 'w' (by decide +kernel) (by decide +kernel) (by decide +kernel)),
    keyIn_true ⟨"nortek ".toList, digits, by rw [List.append_assoc]⟩]
  rfl

/-- **C153** (the head). What the reader takes from the head of a file: the model of the instrument, the angle of the
beams, the sampling rate and the beam matrix. -/
theorem sig_head {pInt : Key → Option ℤ} {pFloat : Key → Option ℚ} {cmds : List (Key × Key)} {rows : List (List ℚ)} {theta : ℤ}
    {fs : ℚ} (h : Spec.SigHead pInt pFloat cmds rows theta fs) :
    ∃ cfg, readHead pInt pFloat (cmds.map fun c => c.1 ++ ',' :: c.2) = .ok cfg ∧
      (∃ model, adModel cfg = .ok model ∧ adInst model = .signature) ∧ 
      (∃ x, headItem cfg "BURST" "SR" = .ok x ∧ x.num = .ok fs) ∧ headMat cfg "XFBURST" = .ok rows ∧ adTheta pInt cfg = .ok (some theta) := by
  obtain ⟨cfg, hcfg⟩ := head_read pInt pFloat cmds h.names fun c hc hg => by
    obtain ⟨a, its, b1, b2, b3, b4⟩ := h.gets c hc hg
    exact ⟨a, its, b1, b2, b3, b4⟩
  have plain : ∀ n : String, n ∈ ["ID", "BEAMCFGLIST"] → ∀ v, Spec.collect (Spec.textsOf cmds n.toList) = some v →
      pget cfg n.toList = some (.raw v) := by
    intro n hn v hv
    refine head_plain h.names n.toList v hv ?_ ?_ hcfg
    · have : ∀ m ∈ ["ID", "BEAMCFGLIST"], ¬ "GET".toList <+: m.toList := by decide +kernel
      exact this n hn
    · intro c hc hg hs
      obtain ⟨p, hp, hk⟩ := get_strip hg hs
      have h4 : n ∈ ["ID", "BEAMCFGLIST", "BURST", "XFBURST"] := by
        simp only [List.mem_cons, List.not_mem_nil, or_false] at hn ⊢
        rcases hn with rfl | rfl
        · exact Or.inl rfl
        · exact Or.inr (Or.inl rfl)
      have := (h.clash c hc n h4 p hp hk).2
      have : ∀ m ∈ ["ID", "BEAMCFGLIST"], m ∉ ["BURST", "XFBURST"] := by decide +kernel
      exact this n hn ‹_›
  have gets : ∀ n : String, n ∈ ["BURST", "XFBURST"] → ∀ its text, Spec.textsOf cmds ("GET".toList ++ n.toList) = [text] →
      Spec.itemsText its text → ∃ d, pget cfg n.toList = some (.items d) ∧
        ∀ p ∈ its, pget d p.1 = some (hdVal pInt pFloat p.2) := by
    intro n hn its text ht hi
    obtain ⟨i1, i2, i3, i4⟩ := hi
    have hn1 : ∀ m ∈ ["BURST", "XFBURST"], ∀ c ∈ m.toList.head?, c ≠ 'G' ∧ c ≠ 'E' ∧ c ≠ 'T' := by decide +kernel
    obtain ⟨d, e1, e2, -⟩ := head_get h.names n.toList its (hn1 n hn) i1 i3 i2 (by rw [ht, i4]) (by
      intro c hc
      simp only [List.mem_cons, List.not_mem_nil, or_false] at hn
      rcases hn with rfl | rfl
      · exact (h.bare c hc).1
      · exact (h.bare c hc).2) (by
      intro c hc hg hs
      obtain ⟨p, hp, hk⟩ := get_strip hg hs
      have h4 : n ∈ ["ID", "BEAMCFGLIST", "BURST", "XFBURST"] := by
        simp only [List.mem_cons, List.not_mem_nil, or_false] at hn ⊢
        rcases hn with rfl | rfl
        · exact Or.inr (Or.inr (Or.inl rfl))
        · exact Or.inr (Or.inr (Or.inr rfl))
      have hp0 := (h.clash c hc n h4 p hp hk).1
      rw [hk, hp0, List.nil_append]) hcfg
    exact ⟨d, e1, e2⟩
  refine ⟨cfg, hcfg, ?_, ?_, ?_, ?_⟩
  · obtain ⟨digits, rest, hid, hdg, hrest⟩ := h.ident
    refine ⟨"Signature".toList ++ digits, ?_, adInst_signature hdg⟩
    have hp := plain "ID" (by simp) _ (by rw [hid]; rfl)
    unfold adModel
    rw [hp]
    simp only
    have hcomma : ',' ∉ "STR=\"Signature".toList ++ (digits ++ ['"']) := by
      intro hm
      rcases List.mem_append.mp hm with hm | hm
      · exact absurd hm (by decide +kernel)
      · rcases List.mem_append.mp hm with hm | hm
        · exact absurd (hdg _ hm) (by decide +kernel)
        · exact absurd (List.mem_singleton.mp hm) (by decide)
    have hfst : (splitAll ',' ("STR=\"Signature".toList ++ (digits ++ '"' :: rest))).headD [] =
        "STR=\"Signature".toList ++ (digits ++ ['"']) := by
      rcases hrest with rfl | ⟨r, rfl⟩
      · rw [splitAll_none ',' _ hcomma]; rfl
      · have e : "STR=\"Signature".toList ++ (digits ++ '"' :: ',' :: r) =
            ("STR=\"Signature".toList ++ (digits ++ ['"'])) ++ ',' :: r := by simp [List.append_assoc]
        rw [e, splitAll_append ',' _ _ hcomma]; rfl
    rw [hfst, ← List.append_assoc, List.dropLast_concat]
    rfl
  · obtain ⟨its, text, s, h1, h2, h3, h4⟩ := h.rate
    obtain ⟨d, e1, e2⟩ := gets "BURST" (by simp) its text h1 h2
    refine ⟨hdVal pInt pFloat s, ?_, ?_⟩
    · unfold headItem
      rw [e1]
      simp only
      rw [e2 _ h3]
    · unfold hdVal
      rcases h4 with ⟨z, hz, rfl⟩ | ⟨hz, hq⟩
      · rw [hz]; rfl
      · rw [hz]
        simp only
        rw [hq]; rfl
  · obtain ⟨its, text, r, c, h1, h2, h3, h4, h5, h6, h7⟩ := h.matrix
    obtain ⟨d, e1, e2⟩ := gets "XFBURST" (by simp) its text h1 h2
    have hI : ∀ {t : Key} {z : ℤ}, pInt t = some z → hdVal pInt pFloat t = .int z := by
      intro t z ht
      unfold hdVal
      rw [ht]
    rw [headMat_spec cfg "XFBURST" d rows.length rows.length
      (fun i j => (pget d (matName i j).toList).getD (.int 0)) (fun i j => (rows.getD i []).getD j 0) e1 ?_]
    · congr 1
      apply List.ext_getElem
      · simp
      · intro i hi hi'
        rw [List.getElem_map, List.getElem_range]
        apply List.ext_getElem
        · rw [List.length_map, List.length_range, h.square _ (List.getElem_mem hi')]
        · intro j hj hj'
          rw [List.getElem_map, List.getElem_range, List.getD_eq_getElem _ _ hi', List.getD_eq_getElem _ _ hj']
    · refine ⟨by rw [e2 _ h3, hI h4], by rw [e2 _ h5, hI h6], fun i hi j hj => ?_⟩
      obtain ⟨t, ht, hq⟩ := h7 i hi j hj
      have := e2 _ ht
      simp only at this
      beta_reduce
      rw [this, Option.getD_some]
      refine ⟨rfl, ?_⟩
      unfold hdVal
      rcases hq with ⟨z, hz, hq⟩ | ⟨hz, hq⟩
      · rw [hz]
        exact Or.inr ⟨z, rfl, hq⟩
      · rw [hz]
        simp only
        rw [hq]
        exact Or.inl rfl
  · obtain ⟨d1, d2, rest, second, more, h1, h2⟩ := h.beams
    have hp := plain "BEAMCFGLIST" (by simp) _ (by rw [h1]; rfl)
    unfold adTheta
    rw [hp]
    simp only
    rw [if_pos]
    · have e : (("BEAM=1,THETA=".toList ++ d1 :: d2 :: rest).drop 13).take 2 = [d1, d2] := rfl
      rw [e, h2]
    · exact keyIn_true ⟨"BEAM=1,".toList, d1 :: d2 :: rest, rfl⟩

/-! ### The file -/

/-- What the pings of a Signature file must be like (the head is in `Spec.SigHead`): velocities of `nb` beams in the
coordinate system `cy`. Most pings agree on the wakeup state, the orientation and how it was found, with or without the last
ping. -/
structure Spec.SigData (order : List ℕ) (cb : ℕ → ℕ × ℕ) (nE : ℕ) (V : ℕ → ℕ → List (List ℤ)) (nb : ℕ) (cy : AdCy)
    (down : Bool) : Prop where
  types : ∀ id ∈ order, id ∈ [21, 23, 24, 28]
  burst : 21 ∈ order
  size : nb = 3 ∨ nb = 4
  beams : beamsCyDict (cb 21).2 21 = ⟨(beamsCyDict (cb 21).2 21).nCells, some cy, some nb⟩
  known : cy ≠ .unset
  velocity : getbit (cb 21).1 5 = true
  track : 23 ∈ order → getbit (cb 23).1 5 = true → (beamsCyDict (cb 23).2 23).nBeams = some 3 ∨
    (beamsCyDict (cb 23).2 23).nBeams = some 4
  status : ∃ wake up auto : ℕ, wake < 4 ∧ up < 8 ∧ up ≠ 6 ∧ (auto = 0 ∨ auto = 1 ∨ auto = 3) ∧ down = decide (up = 5) ∧
    ∀ n, n = nE ∨ n + 1 = nE → Spec.mostly n (fun j => Spec.sigStatus 28 32 (V 21 j)) wake ∧
      Spec.mostly n (fun j => Spec.sigStatus 25 28 (V 21 j)) up ∧ Spec.mostly n (fun j => Spec.sigStatus 22 25 (V 21 j)) auto

theorem check_head (fam : ℕ) (cs : List ℕ) (sid last : ℕ) (text : Key) (rest : List ℕ) :
    adCheckNortek ((Spec.sigHeadRec fam cs sid last text).bytes ++ rest) = .ok () := rfl

theorem covered_single {pInt : Key → Option ℤ} {cfg : List (Key × HOut)} {dec : Option ℝ} {fl : ℤ → ℝ} {o : AdOpen}
    {ws : List AdWrite} {r : Except Err (RDS (AdT o))} (h : adReadEnd pInt cfg dec fl o ws = some r) : adHas o 22 = false := by
  unfold adReadEnd at h
  split at h
  · rename_i hc
    by_contra hne
    unfold adHas at hne
    rw [Bool.not_eq_false, Option.isSome_iff_exists] at hne
    obtain ⟨y, hy⟩ := hne
    have : ∀ l : List (ℕ × ℕ × ℕ), l.lookup 22 = some y → ∃ x ∈ l, x.1 = 22 := by
      intro l
      induction l with
      | nil => intro h; cases h
      | cons a l ih =>
        intro h
        rw [List.lookup_cons] at h
        by_cases ha : (22 == a.1) = true
        · exact ⟨a, by simp, (beq_iff_eq.mp ha).symm⟩
        · rw [Bool.not_eq_true] at ha
          rw [ha] at h
          obtain ⟨x, hx, hx2⟩ := ih h
          exact ⟨x, by simp [hx], hx2⟩
    obtain ⟨x, hx, hx2⟩ := this _ hy
    rcases hc.2.1 x hx with h | h | h | h <;> omega
  · cases h

/-- Reading a file in steps. -/
theorem readSignature_steps {utf8 : List ℕ → Option (List Char)} {pInt : Key → Option ℤ} {pFloat : Key → Option ℚ}
    {fl : ℤ → ℝ} {fuel : ℕ} {dec : Option ℝ} {file : List ℕ} {lines : List Key} {cfg : List (Key × HOut)} {o : AdOpen}
    {ws : List AdWrite} {d : RDS (AdT o)} (h0 : adCheckNortek file = .ok ()) (h1 : adHeadLines utf8 file = .ok lines)
    (h2 : readHead pInt pFloat lines = .ok cfg) (h3 : adOpen fuel file false = some (.ok o))
    (h4 : adReadOpen fuel file o 0 none = some (.ok ws)) (h5 : adReadEnd pInt cfg dec fl o ws = some (.ok d)) :
    adReadSignature utf8 pInt pFloat fl fuel false dec file = some (.ok ⟨o, d⟩) := by
  unfold adReadSignature
  rw [h0]
  simp only
  unfold adOpen at h3
  cases hi : adIndex fuel file with
  | none => rw [hi] at h3; cases h3
  | some r =>
    rw [hi] at h3
    cases r with
    | error e => cases h3
    | ok idx =>
      simp only at h3 ⊢
      rw [h1, except_bind_ok rfl, h2]
      simp only
      rw [Option.some.inj h3]
      simp only
      rw [h4]
      simp only
      have hd : adDual o false = false := by
        unfold adDual
        rw [covered_single h5, Bool.and_false]
        rfl
      rw [hd, if_neg (by decide), h5]

/-- **C153.** A Signature file is its head, with the settings of the instrument as text, and the records of its pings.
`read_signature` gives a dataset with the coordinate system in the records, the declination of the userdata and the recorded
heading. In the earth frame every velocity is the recorded one, turned with the matrix in the text and the orientation
recorded in the same ping, then by the declination. The exceptions of `sig_earth_partial` hold here, too. -/
theorem sig_file_partial {utf8 : List ℕ → Option (List Char)} (hu8 : Spec.Utf8 utf8) (pInt : Key → Option ℤ)
    (pFloat : Key → Option ℚ) (fl : ℤ → ℝ) (order : List ℕ) (cb : ℕ → ℕ × ℕ) (fs : ℕ → List AdField)
    (fam : ℕ) (cs : List ℕ) (sid last : ℕ) (eol : Key) (heol : eol = ['\n'] ∨ eol = ['\r', '\n']) (cmds : List (Key × Key))
    {rows : List (List ℚ)} {theta : ℤ} {rate : ℚ} (hhd : Spec.SigHead pInt pFloat cmds rows theta rate)
    (pre : List Spec.AdRec) (es : List (List Spec.AdRec)) (tail : List ℕ) (h : Spec.AdEnsembles order cb fs es)
    (recs : List Spec.AdRec) (hrecs : recs = Spec.sigHeadRec fam cs sid last
      (Spec.textOf eol (cmds.map fun c => c.1 ++ ',' :: c.2)) :: pre ++ es.flatten)
    (hok : ∀ r ∈ recs, r.ok) (hpre : ∀ r ∈ pre, r.id ∉ adIds) (h2 : 2 ≤ es.length) (ht : tail.length < 10)
    (hh : ∀ r ∈ recs, r.hw + recs.length < 2 ^ 32) (hn : recs.length < 2 ^ 32) (fuel : ℕ) (hf : recs.length < fuel)
    {V : ℕ → ℕ → List (List ℤ)} (hV : Spec.SigNumbers order fs es V) {nb : ℕ} {cy : AdCy}
    {down : Bool} (hp : Spec.SigData order cb es.length V nb cy down) (hrows : rows.length = nb) (dec : Option ℝ)
    (hu : cy = .enu → dec ≠ none → Spec.SigUpright fl order cb es.length V rows) :
    ∃ (o : AdOpen) (nt : ℕ) (d e : RDS (AdT o)) (hd : AdT o → ℝ) (H P R : ℕ → ℝ),
      adReadSignature utf8 pInt pFloat fl fuel false dec (recs.flatMap Spec.AdRec.bytes ++ tail) = some (.ok ⟨o, d⟩) ∧
      (nt = es.length ∨ nt + 1 = es.length) ∧
      ((∃ L, ∀ e ∈ es, Spec.sizeOf e = L) → tail = [] → nt = es.length) ∧
      d.coordSys = Spec.sigFrame cy ∧ d.declination = dec ∧
      d.heading = some hd ∧ (∀ t, hd t = H t.1.2 + dec.getD 0) ∧
      rotate2 3 .earth d = some (.ok e) ∧ e.coordSys = .earth ∧
      (∀ j < nt, Spec.sigReading (24 ∈ order) (Spec.sigAt (V 21 j) 14 0 / 100) (Spec.sigAt (V 24 j) 14 0 / 100) (H j) ∧
        Spec.sigReading (24 ∈ order) (Spec.sigAt (V 21 j) 15 0 / 100) (Spec.sigAt (V 24 j) 15 0 / 100) (P j) ∧
        Spec.sigReading (24 ∈ order) (Spec.sigAt (V 21 j) 16 0 / 100) (Spec.sigAt (V 24 j) 16 0 / 100) (R j)) ∧
      (∀ name id v, Spec.SigVar order cb name id v → ∃ x ∈ e.vars, x.name = name) ∧
      ∀ x ∈ e.vars, ∃ id v, Spec.SigVar order cb x.name id v ∧ x.n = Spec.sigN cb id v ∧
        ∀ c < (beamsCyDict (cb 21).2 21).nCells, ∀ j < nt, Spec.sigDown (V 21 j) = down → ∃ t : AdT o, t.1 = (c, j) ∧
          (v = .vel → (cy = .beam → x.n = nb) → x.val t = turnCW (dec.getD 0)
            (Spec.sigVelocity cy (fun i j => (((rows.getD i []).getD j 0 : ℚ) : ℝ)) (Spec.sigPose fl cb V (Spec.sigDown (V 21 j)) H P R j) x.n
              (Spec.sigRecorded fl id v (cb id).1 x.n (beamsCyDict (cb 21).2 21).nCells c (V id j)))) ∧
          (v ≠ .vel → cy = .xyz ∨ cy = .beam ∧ nb = 4 → x.val t = turnCW (dec.getD 0)
            (Spec.sigPose fl cb V (Spec.sigDown (V 21 j)) H P R j
              (Spec.sigRecorded fl id v (cb id).1 x.n (beamsCyDict (cb 21).2 21).nCells c (V id j)))) := by
  subst hrecs
  obtain ⟨cfg, g1, g2, ⟨x, g3, -⟩, g4, g5⟩ := sig_head hhd
  have hp' : Spec.SigPlan pInt cfg order cb es.length V nb cy rows down :=
    ⟨hp.types, hp.burst, g2, ⟨x, g3⟩, g4, ⟨_, g5⟩, hrows, hp.size, hp.beams, hp.known, hp.velocity, hp.track, hp.status⟩
  set text := Spec.textOf eol (cmds.map fun c => c.1 ++ ',' :: c.2) with htext
  have hrok : (Spec.sigHeadRec fam cs sid last text).ok := hok _ (by simp)
  obtain ⟨o, ws, nt, d, e, hd, H, P, R, a1, a2, a3, a4, a5, a6, a7, a8, a9, a10, a11, a12, a13, a14⟩ :=
    sig_earth_partial pInt cfg fl order cb fs (Spec.sigHeadRec fam cs sid last text :: pre) es tail h (by
      intro r hr
      refine ⟨hok r (List.mem_append_left _ hr), ?_⟩
      rcases List.mem_cons.mp hr with rfl | hr
      · show 160 ∉ adIds
        decide
      · exact hpre r hr) h2 ht hh hn fuel hf false hV hp' dec hu
  refine ⟨o, nt, d, e, hd, H, P, R, ?_, a3, a4, a6, a7, a8, a9, a10, a11, a12, a13, a14⟩
  have hlines : ∀ l ∈ cmds.map (fun c => c.1 ++ ',' :: c.2), ∀ c ∈ l, Spec.printable c := by
    intro l hl
    obtain ⟨c, hc, rfl⟩ := List.mem_map.mp hl
    exact hhd.chars c hc
  refine readSignature_steps ?_ ?_ g1 a1 a2 a5
  · rw [List.cons_append, List.flatMap_cons, List.append_assoc]
    exact check_head _ _ _ _ _ _
  · rw [List.cons_append, List.flatMap_cons, List.append_assoc]
    exact headLines_rec hu8 heol hlines hrok _

/-! ### Other files -/

/-- **C153** (other files). A file that does not begin with the bytes 165 and 10 is refused, whatever it contains, as is a
file of less than two bytes. -/
theorem sig_magic (utf8 : List ℕ → Option (List Char)) (pInt : Key → Option ℤ) (pFloat : Key → Option ℚ)
    (fl : ℤ → ℝ) (fuel : ℕ) (dp : Bool) (dec : Option ℝ) (file : List ℕ) (h : ¬ [165, 10] <+: file) :
    ∃ e, adReadSignature utf8 pInt pFloat fl fuel dp dec file = some (.error e) ∧
      (e = .exception ↔ 2 ≤ file.length) ∧ (e = .structError ↔ file.length < 2) := by
  unfold adReadSignature adCheckNortek
  match file, h with
  | [], _ => exact ⟨.structError, rfl, by simp, by simp⟩
  | [a], _ => exact ⟨.structError, rfl, by simp, by simp⟩
  | a :: b :: r, h =>
    refine ⟨.exception, ?_, by simp, by simp⟩
    have : ¬ (a = 165 ∧ b = 10) := by
      rintro ⟨rfl, rfl⟩
      exact h ⟨r, rfl⟩
    simp only [List.take_succ_cons, List.take_zero]
    rw [if_neg this]

theorem hdLines_bad : ∀ (lines : List Key) (out : List (Key × HRaw)), (∃ l ∈ lines, ',' ∉ l) →
    hdLines out lines = .error .valueError
  | [], _, h => by obtain ⟨l, hl, -⟩ := h; cases hl
  | ln :: r, out, h => by
    have hno : ∀ l : Key, ',' ∉ l → splitFirst ',' l = none := by
      intro l
      induction l with
      | nil => intro _; rfl
      | cons x l ih =>
        intro hl
        rw [splitFirst, if_neg (fun e => hl (by simp [e])), ih (fun e => hl (by simp [e]))]
        rfl
    rw [hdLines]
    cases hln : hdLine out ln with
    | error e =>
      unfold hdLine at hln
      split at hln
      · rw [← Except.error.inj hln]
      · split at hln <;> cases hln
    | ok out' =>
      simp only
      apply hdLines_bad r out'
      obtain ⟨l, hl, hc⟩ := h
      rcases List.mem_cons.mp hl with rfl | hl
      · unfold hdLine at hln
        rw [hno l hc] at hln
        cases hln
      · exact ⟨l, hl, hc⟩

/-- **C153** (heads that are refused). A file of complete records cannot be read when its head has a line without a comma, such
as an empty line, wherever the line is. -/
theorem sig_head_line {utf8 : List ℕ → Option (List Char)} (hu8 : Spec.Utf8 utf8) (pInt : Key → Option ℤ)
    (pFloat : Key → Option ℚ) (fl : ℤ → ℝ) (fam : ℕ) (cs : List ℕ) (sid last : ℕ) (eol : Key)
    (heol : eol = ['\n'] ∨ eol = ['\r', '\n']) (lines : List Key) (hl : ∀ l ∈ lines, ∀ c ∈ l, Spec.printable c)
    (hbad : ∃ l ∈ lines, ',' ∉ l) (rs : List Spec.AdRec)
    (hok : Spec.AdFileOk (Spec.sigHeadRec fam cs sid last (Spec.textOf eol lines) :: rs)) (tail : List ℕ)
    (ht : tail.length < 10) (fuel : ℕ) (hf : rs.length + 1 < fuel) (dp : Bool) (dec : Option ℝ) :
    adReadSignature utf8 pInt pFloat fl fuel dp dec
      ((Spec.sigHeadRec fam cs sid last (Spec.textOf eol lines) :: rs).flatMap Spec.AdRec.bytes ++ tail) =
        some (.error .valueError) := by
  obtain ⟨idx, f, h1, -⟩ := index_again_partial _ hok tail ht fuel hf dp
  unfold adReadSignature
  rw [h1, List.flatMap_cons, List.append_assoc, check_head]
  simp only
  rw [headLines_rec hu8 heol hl (hok.ok _ (by simp)), except_bind_ok rfl]
  unfold readHead
  rw [hdLines_bad lines [] hbad]

/-- A file with an empty line in its head. -/
example : Spec.AdFileOk [Spec.sigHeadRec 16 [0, 0, 0, 0] 16 0 (Spec.textOf ['\n'] ["ID,STR".toList, [], "GETBURST,SR=8".toList]),
    exSigRec 17409 exLookUp 1 [0, 0, 1000, 1000]] :=
  ⟨by unfold Spec.AdRec.ok; decide +kernel, by decide +kernel, by decide +kernel, by decide +kernel, by decide +kernel,
    by decide +kernel⟩

/-! ### Samples -/

theorem clash_of {cmds : List (Key × Key)} (h : ∀ c ∈ cmds, ∀ n ∈ ["ID", "BEAMCFGLIST", "BURST", "XFBURST"],
    "GET".toList <+: c.1 → n.toList <:+ c.1.drop 3 →
      (∀ x ∈ (c.1.drop 3).take ((c.1.drop 3).length - n.toList.length), x ∈ ['G', 'E', 'T']) →
      (c.1.drop 3).take ((c.1.drop 3).length - n.toList.length) = [] ∧ n ∈ ["BURST", "XFBURST"]) :
    ∀ c ∈ cmds, ∀ n ∈ ["ID", "BEAMCFGLIST", "BURST", "XFBURST"], ∀ p : Key, (∀ x ∈ p, x ∈ ['G', 'E', 'T']) →
      c.1 = "GET".toList ++ (p ++ n.toList) → p = [] ∧ n ∈ ["BURST", "XFBURST"] := by
  intro c hc n hn p hp he
  have hd : c.1.drop 3 = p ++ n.toList := by rw [he]; rfl
  have ht : (c.1.drop 3).take ((c.1.drop 3).length - n.toList.length) = p := by
    rw [hd, List.length_append, Nat.add_sub_cancel, List.take_left]
  have := h c hc n hn ⟨_, he.symm⟩ ⟨p, hd.symm⟩ (by rw [ht]; exact hp)
  rwa [ht] at this

/-- A head. -/
def exHeadCmds : List (Key × Key) :=
  [("ID".toList, "STR=\"Signature1000\",SN=1".toList), ("GETECHO".toList, "EN=1".toList),
   ("BEAMCFGLIST".toList, "BEAM=1,THETA=25.00".toList), ("BEAMCFGLIST".toList, "BEAM=2,THETA=25.00".toList),
   ("GETBURST".toList, "NC=1,SR=8".toList),
   ("GETXFBURST".toList, ("ROWS=4,COLS=4,M11=1,M12=0,M13=-1,M14=0,M21=0,M22=1,M23=0,M24=-1,M31=0.5,M32=0,M33=0.5,M34=0," ++
     "M41=0,M42=0.5,M43=0,M44=0.5").toList)]

def exHeadItems (k : Key) : List (Key × Key) :=
  if k = "GETECHO".toList then [("EN".toList, "1".toList)]
  else if k = "GETBURST".toList then [("NC".toList, "1".toList), ("SR".toList, "8".toList)]
  else [("ROWS".toList, "4".toList), ("COLS".toList, "4".toList), ("M11".toList, "1".toList), ("M12".toList, "0".toList),
    ("M13".toList, "-1".toList), ("M14".toList, "0".toList), ("M21".toList, "0".toList), ("M22".toList, "1".toList),
    ("M23".toList, "0".toList), ("M24".toList, "-1".toList), ("M31".toList, "0.5".toList), ("M32".toList, "0".toList),
    ("M33".toList, "0.5".toList), ("M34".toList, "0".toList), ("M41".toList, "0".toList), ("M42".toList, "0.5".toList),
    ("M43".toList, "0".toList), ("M44".toList, "0.5".toList)]

/-- How the numbers in it are read. -/
def exHeadInt : Key → Option ℤ := fun s =>
  if s = "25".toList then some 25 else if s = "8".toList then some 8 else if s = "4".toList then some 4
  else if s = "1".toList then some 1 else if s = "0".toList then some 0 else if s = "-1".toList then some (-1) else none
def exHeadFloat : Key → Option ℚ := fun s => if s = "0.5".toList then some (1 / 2) else none

instance (c : Char) : Decidable (Spec.printable c) := inferInstanceAs (Decidable (_ ∧ _))
instance (its : List (Key × Key)) (t : Key) : Decidable (Spec.itemsText its t) := inferInstanceAs (Decidable (_ ∧ _))

theorem exHead_ok : Spec.SigHead exHeadInt exHeadFloat exHeadCmds exRows4 25 8 where
  chars := by decide +kernel
  names := by decide +kernel
  gets := by
    have h : ∀ c ∈ exHeadCmds, "GET".toList <+: c.1 → Spec.textsOf exHeadCmds c.1 = [c.2] ∧
        Spec.itemsText (exHeadItems c.1) c.2 := by decide +kernel
    intro c hc hg
    exact ⟨(h c hc hg).1, _, (h c hc hg).2⟩
  clash := clash_of (by decide +kernel)
  bare := by decide +kernel
  ident := ⟨"1000".toList, ",SN=1".toList, by decide +kernel, by decide +kernel, Or.inr ⟨"SN=1".toList, by decide +kernel⟩⟩
  beams := ⟨'2', '5', ".00".toList, "BEAM=2,THETA=25.00".toList, [], by decide +kernel, by decide +kernel⟩
  rate := ⟨exHeadItems "GETBURST".toList, "NC=1,SR=8".toList, "8".toList, by decide +kernel, by decide +kernel, by decide +kernel,
    Or.inl ⟨8, by decide +kernel, by norm_num⟩⟩
  matrix := by
    have h : ∀ i < 4, ∀ j < 4, ∃ x ∈ exHeadItems "GETXFBURST".toList, x.1 = (matName i j).toList ∧
        ((exHeadInt x.2).map (fun z : ℤ => (z : ℚ)) = some ((exRows4.getD i []).getD j 0) ∨
          exHeadInt x.2 = none ∧ exHeadFloat x.2 = some ((exRows4.getD i []).getD j 0)) := by decide +kernel
    refine ⟨exHeadItems "GETXFBURST".toList, _, "4".toList, "4".toList, rfl, by decide +kernel, by decide +kernel,
      by decide +kernel, by decide +kernel, by decide +kernel, fun i hi j hj => ?_⟩
    obtain ⟨⟨a, t⟩, hx, rfl, hq⟩ := h i hi j hj
    refine ⟨t, hx, ?_⟩
    rcases hq with hq | hq
    · obtain ⟨z, hz, hq⟩ := Option.map_eq_some_iff.mp hq
      exact Or.inl ⟨z, hz, hq.symm⟩
    · exact Or.inr hq
  square := by decide +kernel

/-- A file that `sig_file_partial` speaks about, with the text of the head; the instrument looks up, except in the first ping. -/
example : ∃ (o : AdOpen) (d : RDS (AdT o)),
    adReadSignature exUtf8 exHeadInt exHeadFloat (fun _ => 0) 10 false (some 15)
      ((Spec.sigHeadRec 16 [0, 0, 0, 0] 16 0 (Spec.textOf ['\r', '\n'] (exHeadCmds.map fun c => c.1 ++ ',' :: c.2)) ::
        (exSigEs 17409 [exLookDown, exLookUp, exLookUp, exLookUp] [0, 0, 1000, 1000]).flatten).flatMap Spec.AdRec.bytes) =
        some (.ok ⟨o, d⟩) ∧ d.coordSys = .inst ∧ d.declination = some 15 := by
  have hb : beamsCyDict (17409 : ℤ).toNat 21 = ⟨1, some .xyz, some 4⟩ := by decide +kernel
  have hst : ∀ st ∈ [exLookDown, exLookUp, exLookUp, exLookUp], 0 ≤ st ∧ st < 2 ^ 32 := by decide
  have hv : ∀ v ∈ [(0 : ℤ), 0, 1000, 1000], Spec.inRange .h v := by simp [Spec.inRange, AdFmt.signed, AdFmt.size]
  have hp := exSig_plan (b := 17409) (sts := [exLookDown, exLookUp, exLookUp, exLookUp]) (vel := [0, 0, 1000, 1000]) (nb := 4) (up := 4)
      exSig_head.1 exSig_head.2.1 exSig_head.2.2.1 exSig_head.2.2.2 rfl (by decide) hb (by decide) (by decide)
      (by rintro n (rfl | hn)
          · decide +kernel
          · obtain rfl : n = 3 := by simpa using hn
            decide +kernel)
  obtain ⟨o, nt, d, e, hd, H, P, R, a1, a2, a3, a4, a5, -⟩ := sig_file_partial exUtf8_ok exHeadInt exHeadFloat (fun _ => 0)
    [21] (fun _ => (32, (17409 : ℤ).toNat)) (fun _ => exSigFs 4) 16 [0, 0, 0, 0] 16 0 ['\r', '\n'] (Or.inr rfl) exHeadCmds exHead_ok []
    (exSigEs 17409 [exLookDown, exLookUp, exLookUp, exLookUp] [0, 0, 1000, 1000]) []
    (exSig_ens (b := 17409) (sts := [exLookDown, exLookUp, exLookUp, exLookUp]) (vel := [0, 0, 1000, 1000])
      (by decide) hst (by decide) (by decide) hv (by decide +kernel) (by unfold Spec.AdRec.ok; decide +kernel)
      (by decide +kernel)) _ rfl (by unfold Spec.AdRec.ok; decide +kernel) (by simp) (by decide) (by decide) (by decide +kernel)
      (by decide +kernel) 10 (by decide +kernel)
    (exSig_numbers (by decide) hst (by decide) (by decide) hv)
    ⟨hp.types, hp.burst, hp.size, hp.beams, hp.known, hp.velocity, hp.track, hp.status⟩ rfl (some 15)
    (by intro h; cases h)
  refine ⟨o, d, ?_, a4, a5⟩
  rw [List.append_nil] at a1
  exact a1

end Dolfyn
