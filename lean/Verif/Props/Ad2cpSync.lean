import Verif.Props.Ad2cpFile

/-!
C45: a place of an AD2CP file that does not begin with the sync byte is never read as a record.
-/

namespace Dolfyn

theorem adReadHdr_bad {file : List ℕ} {p : ℕ} (hl : p + 10 ≤ file.length) (hs : file[p]? ≠ some 165) :
    adReadHdr file p = .error (.err .exception) := by
  obtain ⟨b0, b1, b2, b3, b4, b5, b6, b7, b8, b9, r, hd⟩ : ∃ b0 b1 b2 b3 b4 b5 b6 b7 b8 b9 r,
      file.drop p = b0 :: b1 :: b2 :: b3 :: b4 :: b5 :: b6 :: b7 :: b8 :: b9 :: r := by
    have hlen : 10 ≤ (file.drop p).length := by rw [List.length_drop]; omega
    rcases h : file.drop p with _ | ⟨b0, _ | ⟨b1, _ | ⟨b2, _ | ⟨b3, _ | ⟨b4, _ | ⟨b5, _ | ⟨b6, _ | ⟨b7, _ |
      ⟨b8, _ | ⟨b9, r⟩⟩⟩⟩⟩⟩⟩⟩⟩⟩ <;> rw [h] at hlen <;> simp at hlen
    exact ⟨b0, b1, b2, b3, b4, b5, b6, b7, b8, b9, r, rfl⟩
  have hb : file[p]? = some b0 := by
    have : (file.drop p)[0]? = some b0 := by rw [hd]; rfl
    rwa [List.getElem?_drop, Nat.add_zero] at this
  have hne : ¬ ((b0 : ℤ) = 165) := by
    intro e; apply hs; rw [hb]; congr 1; omega
  unfold adReadHdr
  rw [hd]
  have hn : adNbyte adHeader = 10 := by decide
  have hread : ∃ x y, adRead adHeader .off (b0 :: b1 :: b2 :: b3 :: b4 :: b5 :: b6 :: b7 :: b8 :: b9 :: r) =
      .ok ([.num b0, .num b1, .num b2, .num b3, .num (b4 + 256 * b5), .num x, .num y], r) := by
    refine ⟨b6 + 256 * b7, b8 + 256 * b9, ?_⟩
    unfold adRead
    rw [hn]
    simp [adHeader, adUnpack, adElems, AdField.count, AdField.bytes, AdFmt.size, adVal, AdFmt.signed,
      leNat, adCsCheck, adGroup, adFirst, bind, Except.bind, pure, Except.pure]
  obtain ⟨x, y, hr⟩ := hread
  rw [hr]
  simp only [ne_eq, hne, not_false_eq_true, if_true]

/-- C45: where a header is due and the byte there is not the sync byte, reading stops with an
exception, whatever was read before; nothing at that place is taken for data. -/
theorem ad_out_of_sync (readers : ℕ → Option (List AdField)) (file : List ℕ) (ctx : AdCtx) (p c fuel : ℕ)
    (k : ℕ → ℕ) (hl : p + 10 ≤ file.length) (hs : file[p]? ≠ some 165) :
    adReadLoop (adRecAt readers file) ctx (fuel + 1) p c k = some (.error .exception) := by
  have h : adRecAt readers file p = .error (.err .exception) := by
    unfold adRecAt; rw [adReadHdr_bad hl hs]; rfl
  rw [adReadLoop, h]

/-- C45: a read that ends well met a sync byte at the place where it began, or the end of the file. -/
theorem ad_read_synced (readers : ℕ → Option (List AdField)) (file : List ℕ) (ctx : AdCtx) (p c fuel : ℕ)
    (k : ℕ → ℕ) (ws : List AdWrite)
    (h : adReadLoop (adRecAt readers file) ctx (fuel + 1) p c k = some (.ok ws)) :
    file[p]? = some 165 ∨ file.length < p + 10 := by
  by_contra hn
  push Not at hn
  rw [ad_out_of_sync readers file ctx p c fuel k (by omega) hn.1] at h
  simp at h

/-- A clock record (type 4, of which nothing is kept) followed by ten bytes of another kind. -/
example : adReadLoop (adRecAt (fun _ => none) ([165, 10, 4, 16, 0, 0, 0, 0, 0, 0] ++ List.replicate 10 7))
    ⟨[0], 20, 1, 0, 1, fun _ => 0⟩ 3 0 0 (fun _ => 0) = some (.error .exception) := by
  decide +kernel

end Dolfyn
