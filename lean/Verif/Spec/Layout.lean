import Verif.Model.Serialize

/-!
# Specification of the files

Names, attributes and datasets as a program that opens the files sees them, without the code.
-/

namespace TK

noncomputable section

/-- A prefix followed by a number that is padded with zeros to at least `w` digits. -/
def paddedName (pre : String) (w k : ℕ) : Name := pre.toList ++ List.leftpad w '0' (toString k).toList

/-- The group has the attribute. -/
def Group.HasAttr (g : Group) (name : String) (v : AttrVal) : Prop := g.attrs.find name.toList = some v

/-- The group has the dataset. -/
def Group.HasData (g : Group) (name : String) (A : NDArray ℝ) : Prop := g.dsets.find name.toList = some (.arr A)

/-- The group has the arrays as datasets with numbered names. -/
def Group.HasSeries (g : Group) (pre : String) (As : List (NDArray ℝ)) : Prop :=
  ∀ k A, As[k]? = some A → g.dsets.find (paddedName pre 3 k) = some (.arr A)

/-- A group with a Kruskal tensor. -/
structure KruskalLayout (g : Group) (t : KruskalTensor) : Prop where
  type : g.HasAttr "type" (.str "KruskalTensor".toList)
  number : g.HasAttr "n_factor_matrices" (.int t.factorMatrices.length)
  factors : g.HasSeries "factor_matrix" t.factorMatrices
  weights : g.HasData "weights" t.weights

/-- A group with an evolving tensor. -/
structure EvolvingLayout (g : Group) (t : EvolvingTensor) : Prop where
  type : g.HasAttr "type" (.str "EvolvingTensor".toList)
  number : g.HasAttr "num_Bs" (.int t.B.length)
  warning : g.HasAttr "warning" (.bool t.warning)
  sameSize : g.HasAttr "all_same_size" (.bool t.allSameSize)
  A : g.HasData "A" t.A
  B : g.HasSeries "B_" t.B
  C : g.HasData "C" t.C

/-- A group with a PARAFAC2 tensor. -/
structure Parafac2Layout (g : Group) (t : Parafac2Tensor) : Prop where
  type : g.HasAttr "type" (.str "Parafac2Tensor".toList)
  number : g.HasAttr "n_projection_matrices" (.int t.P.length)
  warning : g.HasAttr "warning" (.bool t.warning)
  A : g.HasData "A" t.A
  blueprint : g.HasData "blueprint_B" t.blueprint
  C : g.HasData "C" t.C
  P : g.HasSeries "projection_matrix_" t.P

/-- A file with checkpoints names the class of the decomposer that wrote it. -/
def Typed (cls : String) (f : Option H5File) : Prop :=
  (f.getD H5File.empty).root.attrs.has "final_iteration".toList = true →
    (f.getD H5File.empty).root.HasAttr "decomposition_type" (.str cls.toList)

end
end TK
