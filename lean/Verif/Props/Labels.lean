import Verif.Model.Labels

/-! C116: labels of the vector components. -/

namespace Dolfyn

/-- The number of vector components of an instrument. -/
def Spec.components : LbMake → ℕ
  | .nortek3 => 3
  | _ => 4

/-- What the first three components mean in a frame, up to the number behind a repeated vertical component. -/
def Spec.axesOf (frame : String) : List (List String) :=
  if frame = "earth" then [["E"], ["N"], ["U", "U1"]]
  else if frame = "principal" then [["streamwise"], ["x-stream"], ["vert", "vert1"]]
  else [["X"], ["Y"], ["Z", "Z1"]]

/-- **C116 (part).** For a known make with its usual number of beams, every frame gives labels: as many as there are
components, with the names of that frame's axes in order; the recorded coordinate system is the frame; the IMU
axes agree. Missing: other numbers of beams (see below). -/
theorem set_coords_labels_partial (make : Key) (frame : String) (hm : lbMake make ≠ .other)
    (hf : frame ∈ ["inst", "ship", "earth", "principal"]) :
    ∃ dir imu, setCoords make (Spec.components (lbMake make)) frame false = .ok (dir, imu, frame) ∧
      dir.length = Spec.components (lbMake make) ∧
      List.Forall₂ (fun l s => l ∈ s) (dir.take 3) (Spec.axesOf frame) ∧
      List.Forall₂ (fun l s => l ∈ s) imu (Spec.axesOf frame) := by
  unfold setCoords
  simp only [List.mem_cons, List.not_mem_nil, or_false] at hf
  generalize lbMake make = m at hm ⊢
  rcases hf with rfl | rfl | rfl | rfl <;> cases m <;>
    first
      | exact absurd rfl hm
      | refine ⟨_, _, rfl, rfl, ?_, ?_⟩ <;> decide

/-- **C116.** In beam coordinates the components are numbered from one, for any number of beams. -/
theorem set_coords_beam (make : Key) (nb : ℕ) (hm : lbMake make ≠ .other) :
    setCoords make nb "beam" false =
      .ok ((List.range nb).map (fun i : ℕ => toString (i + 1)), ["X", "Y", "Z"], "beam") := by
  unfold setCoords
  generalize lbMake make = m at hm ⊢
  cases m with
  | other => exact absurd rfl hm
  | rdi => simp [lbLabels, bind, Except.bind]
  | nortek4 => simp [lbLabels, bind, Except.bind]
  | nortek3 => simp [lbLabels, bind, Except.bind]

/-- **C116.** The labels tell the frames apart. -/
theorem set_coords_distinct (make : Key) (nb nb' : ℕ) (f f' : String) (d i d' i' : List String) (c c' : String)
    (h : setCoords make nb f false = .ok (d, i, c)) (h' : setCoords make nb' f' false = .ok (d', i', c'))
    (hf : f ∈ ["inst", "earth", "principal"]) (hf' : f' ∈ ["inst", "earth", "principal"]) (hd : d = d') :
    f = f' := by
  subst hd
  simp only [List.mem_cons, List.not_mem_nil, or_false] at hf hf'
  unfold setCoords at h h'
  generalize lbMake make = m at h h'
  cases m with
  | other => simp [lbLabels, bind, Except.bind] at h
  | rdi | nortek4 | nortek3 =>
    rcases hf with rfl | rfl | rfl <;> rcases hf' with rfl | rfl | rfl <;> first
      | rfl
      | (exfalso
         simp only [lbLabels, bind, Except.bind, Bool.false_eq_true, ↓reduceIte] at h h'
         simp (config := { decide := true }) only [↓reduceIte] at h h'
         split_ifs at h h'
         all_goals first
          | (cases h; done)
          | (cases h'; done)
          | (have e1 := (Prod.mk.inj (Except.ok.inj h)).1
             have e2 := (Prod.mk.inj (Except.ok.inj h')).1
             rw [← e1] at e2
             exact absurd e2 (by decide)))

/-- **C116.** A three-beam Signature cannot be given instrument, earth or principal coordinates: four labels do not
fit three components. -/
theorem set_coords_three_beams_false : ∀ f ∈ ["inst", "earth", "principal"],
    setCoords "nortek signature1000".toList 3 f false = .error .valueError := by decide +kernel

/-- **C116.** `forced` always raises: the suffix is added before the labels are looked up. -/
theorem set_coords_forced_false (make : Key) (nb : ℕ) (hm : lbMake make ≠ .other) :
    ∀ f ∈ ["beam", "inst", "ship", "earth", "principal"], setCoords make nb f true = .error .keyError := by
  intro f hf
  unfold setCoords
  generalize lbMake make = m at hm ⊢
  simp only [List.mem_cons, List.not_mem_nil, or_false] at hf
  rcases hf with rfl | rfl | rfl | rfl | rfl <;> cases m <;> first
    | exact absurd rfl hm
    | rfl

/-- **C116.** Makes other than RDI and Nortek raise. -/
theorem set_coords_unknown (make : Key) (nb : ℕ) (f : String) (b : Bool) (hm : lbMake make = .other) :
    setCoords make nb f b = .error .unboundLocal := by
  unfold setCoords
  rw [hm]
  rfl

example : lbMake "rdi workhorse".toList = .rdi ∧ lbMake "nortek vector".toList = .nortek3 ∧
    lbMake "nortek signature1000".toList = .nortek4 ∧ lbMake "sontek hydra".toList = .other := by decide +kernel

end Dolfyn
