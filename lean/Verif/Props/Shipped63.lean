import Verif.Props.Shipped
import Verif.Props.Meaning63

/-!
# C100: the command line program on Lorenz-63 parameter files
-/

namespace VGPA

noncomputable section

variable {G : Type}

/-- What a file made by the program contains for a Lorenz-63 process on `n` points: the eleven names with arrays of these shapes. -/
def Spec.fileShapes3 (n : ℕ) : List (String × List ℕ) :=
  [("at", [n, 3, 3]), ("bt", [n, 3]), ("fx", [1]), ("m0", [3]), ("s0", [3, 3]), ("mt", [n, 3]), ("st", [n, 3, 3]), ("Efx", [n, 3]),
    ("Edf", [n, 3, 3]), ("lamt", [n, 3]), ("psit", [n, 3, 3])]

/-- C100: for every valid Lorenz-63 parameter file: when the output file can be opened, the program ends with status 0, and the
output file can be loaded and holds the eleven documented arrays. -/
theorem C100_command_line_lorenz63 (E : Env G) (O : Outside Arr) (order : List String) (ho : order.Perm requiredKeys) (pf name : String)
    (kv : List (String × Json)) (hr : O.readJson pf = .ok (.obj kv)) (hname : kv.lookup "Output_Name" = some (.str name))
    (hne : name ≠ "") (c : Spec.Config3) (hin : c.In (.obj kv)) (N : ℕ) (hv : c.Valid N)
    (hopen : O.canOpen (Sim.fileName name) = .ok ()) (files : Files) :
    ∃ files' d, main (pyClasses E) O order (some pf) none files = (.returns, files')
      ∧ exitStatus (main (pyClasses E) O order (some pf) none files).1 = 0
      ∧ load files' (some (Sim.fileName name)) = .ok d
      ∧ ∀ e ∈ Spec.fileShapes3 (N + 1), ∃ a, d.lookup e.1 = some a ∧ a.shape = e.2 := by
  have hreq : ∀ k ∈ Spec.required, kv.lookup k ≠ none := by
    intro k hk hno
    obtain ⟨h1, ⟨_, h2, _⟩, ⟨_, _, _, h3, _⟩, ⟨_, h4, _⟩, h5, h6, ⟨_, h7, _⟩, _, _, _, h8, _⟩ := hin
    simp only [Spec.required, List.mem_cons, List.not_mem_nil, or_false] at hk
    rcases hk with rfl | rfl | rfl | rfl | rfl | rfl | rfl | rfl | rfl <;>
      first
      | (rw [hname] at hno; cases hno)
      | (rw [item_lookup h1] at hno; cases hno)
      | (rw [item_lookup h2] at hno; cases hno)
      | (rw [item_lookup h3] at hno; cases hno)
      | (rw [item_lookup h4] at hno; cases hno)
      | (rw [item_lookup h5] at hno; cases hno)
      | (rw [item_lookup h6] at hno; cases hno)
      | (rw [item_lookup h7] at hno; cases hno)
      | (rw [item_lookup h8] at hno; cases hno)
  have hist0 : Spec.History (pyClasses E) O.canOpen (some name) files [] (Sim.init (some name), files) := .new
  obtain ⟨e1, e2⟩ := C97_setup_and_run E c (.obj kv) hin N hv (Sim.init (some name))
  have hshape := C97_output E O.canOpen (some name) files _ _ (pyHistory hist0) c (.obj kv) hin N hv
  obtain ⟨files', d, h1, h2, h3, h4⟩ := command_line_ok E O order ho pf name kv hr hname hne hreq files e1 e2 _ hshape hopen
  refine ⟨files', d, h1, h2, h3, fun e he => ?_⟩
  simp only [Spec.fileShapes3, List.mem_cons, List.not_mem_nil, or_false] at he
  simp only [List.mem_cons, List.not_mem_nil, or_false] at h4
  rcases he with rfl | rfl | rfl | rfl | rfl | rfl | rfl | rfl | rfl | rfl | rfl
  · exact h4 ("at", some [N + 1, 3, 3]) (by simp)
  · exact h4 ("bt", some [N + 1, 3]) (by simp)
  · exact h4 ("fx", none) (by simp)
  · exact h4 ("m0", some [3]) (by simp)
  · exact h4 ("s0", some [3, 3]) (by simp)
  · exact h4 ("mt", some [N + 1, 3]) (by simp)
  · exact h4 ("st", some [N + 1, 3, 3]) (by simp)
  · exact h4 ("Efx", some [N + 1, 3]) (by simp)
  · exact h4 ("Edf", some [N + 1, 3, 3]) (by simp)
  · exact h4 ("lamt", some [N + 1, 3]) (by simp)
  · exact h4 ("psit", some [N + 1, 3, 3]) (by simp)

/-- Non-vacuity of C100: the example file asks for the output `Sim_L3D` and is valid. -/
example (E : Env G) (O : Outside Arr) (pf : String) (hr : O.readJson pf = .ok Spec.exampleParams3)
    (hopen : O.canOpen "Sim_L3D.h5" = .ok ()) (files : Files) :=
  C100_command_line_lorenz63 E O _ (List.Perm.refl _) pf "Sim_L3D" _ hr rfl (by decide) _ example_in3 2000 example_valid3
    (by rw [show Sim.fileName "Sim_L3D" = "Sim_L3D.h5" by decide]; exact hopen) files

end

end VGPA
