import Verif.Model.AttrIo

/-!
C180: the attributes of a dataset after saving and loading.
-/

namespace Dolfyn

/-- C180. Exactly these attributes come back as they were: numbers, texts (but for a text under `rotate_vars`), lists
of two or more numbers or texts, the list `rotate_vars` with one name, and empty arrays. -/
theorem attr_roundtrip (nm : String) (v : AttrVal) :
    attrLoaded nm v = v ↔
      (∃ x, v = .num x) ∨ (∃ s, v = .text s ∧ nm ≠ "rotate_vars") ∨ (∃ l, v = .nums l ∧ 2 ≤ l.length) ∨
      (∃ l, v = .texts l ∧ 2 ≤ l.length) ∨ (∃ s, v = .texts [s] ∧ nm = "rotate_vars") ∨ v = .arr [] := by
  rcases v with x | s | l | l | l
  · simp [attrLoaded, ncStored, loadAttr]
  · by_cases h : nm = "rotate_vars" <;> simp [attrLoaded, ncStored, loadAttr, h]
  · rcases l with _ | ⟨a, _ | ⟨b, l⟩⟩ <;> simp [attrLoaded, ncStored, loadAttr]
  · rcases l with _ | ⟨a, _ | ⟨b, l⟩⟩
    · simp [attrLoaded, ncStored, loadAttr]
    · by_cases h : nm = "rotate_vars" <;> simp [attrLoaded, ncStored, loadAttr, h]
    · simp [attrLoaded, ncStored, loadAttr]
  · rcases l with _ | ⟨a, _ | ⟨b, l⟩⟩ <;> simp [attrLoaded, ncStored, loadAttr]

/-- C180. The rotations of the loaded dataset run through the names of the saved one, for any number of names. -/
theorem rotate_vars_loaded (l : List String) : attrNames (attrLoaded "rotate_vars" (.texts l)) = .ok l := by
  rcases l with _ | ⟨a, _ | ⟨b, l⟩⟩ <;> simp [attrLoaded, ncStored, loadAttr, attrNames]

/-- C180. Saving and loading again changes nothing any more, whatever the attribute was. -/
theorem attr_twice (nm : String) (v : AttrVal) : attrLoaded nm (attrLoaded nm v) = attrLoaded nm v := by
  rcases v with x | s | l | l | l
  · rfl
  · by_cases h : nm = "rotate_vars" <;> simp [attrLoaded, ncStored, loadAttr, h]
  · rcases l with _ | ⟨a, _ | ⟨b, l⟩⟩ <;> simp [attrLoaded, ncStored, loadAttr]
  · rcases l with _ | ⟨a, _ | ⟨b, l⟩⟩
    · simp [attrLoaded, ncStored, loadAttr]
    · by_cases h : nm = "rotate_vars" <;> simp [attrLoaded, ncStored, loadAttr, h]
    · simp [attrLoaded, ncStored, loadAttr]
  · rcases l with _ | ⟨a, _ | ⟨b, l⟩⟩ <;> simp [attrLoaded, ncStored, loadAttr]

/-- C180. What other attributes become: lists of one element turn into the element, empty lists into empty arrays, and
arrays into lists or numbers. -/
theorem attr_changed (nm : String) (x : ℚ) (s : String) (a : List ℚ) (ha : 2 ≤ a.length) :
    attrLoaded nm (.nums [x]) = .num x ∧ attrLoaded nm (.arr [x]) = .num x ∧ attrLoaded nm (.arr a) = .nums a ∧
    attrLoaded nm (.nums []) = .arr [] ∧ attrLoaded nm (.texts []) = .arr [] ∧
    (nm ≠ "rotate_vars" → attrLoaded nm (.texts [s]) = .text s) := by
  refine ⟨rfl, rfl, ?_, rfl, rfl, ?_⟩
  · rcases a with _ | ⟨p, _ | ⟨q, a⟩⟩
    · simp at ha
    · simp at ha
    · simp [attrLoaded, ncStored, loadAttr]
  · intro h; simp [attrLoaded, ncStored, loadAttr, h]

/-- C180 in full: every attribute comes back as it was. -/
def Spec.attrsKept : Prop := ∀ nm v, attrLoaded nm v = v

/-- C180 is false, for example for a list of one text that is not `rotate_vars`: looping over it gives letters. -/
theorem attrs_kept_false : ¬ Spec.attrsKept ∧
    attrNames (attrLoaded "imu_vars" (.texts ["acc"])) = .ok ["a", "c", "c"] ∧
    attrNames (attrLoaded "rotate_vars" (.texts ["vel"])) = .ok ["vel"] := by
  refine ⟨fun h => ?_, by decide, by decide⟩
  have := h "x" (.nums [1])
  simp [attrLoaded, ncStored, loadAttr] at this

example : attrLoaded "coord_sys" (.text "earth") = .text "earth" ∧
    attrLoaded "rotate_vars" (.texts ["vel", "accel"]) = .texts ["vel", "accel"] ∧
    attrLoaded "rotate_vars" (.texts ["vel"]) = .texts ["vel"] := by decide

end Dolfyn
