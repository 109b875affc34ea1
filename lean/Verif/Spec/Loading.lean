import Verif.Spec.Paths
/-! Which files a file can load (C47). -/
namespace Oelint.Spec
variable [Uni]

/-- `n` is written as the file name of an `include` or `require` in `f` -/
def WritesInclude (W : World) (f n : Str) : Prop :=
  ∃ off neg cs c m, prepareLines W f off neg = .ok cs ∧ c ∈ cs ∧ reMatch reInclude.re c.cnt = some m ∧
    n = (reInclude.group m c!"incname").getD []

/-- `n` is written as the class names of an `inherit` or `INHERIT` in `f` -/
def WritesInherit (W : World) (f n : Str) : Prop :=
  ∃ off neg cs c m, prepareLines W f off neg = .ok cs ∧ c ∈ cs ∧
    ((reMatch reInherit.re c.cnt = some m ∧ n = (reInherit.group m c!"inhname").getD []) ∨
     (reMatch reInheritGlob.re c.cnt = some m ∧ n = (reInheritGlob.group m c!"inhname").getD []))

/-- `f` can load the file `p`, if the names in it expand accordingly: an include finds its file in the directory of `f` or
in the layer, an inherit finds a class there -/
def MayLoad (W : World) (f p : Str) : Prop :=
  (∃ (n : Str) (s : Stash) (nm : Str), WritesInclude W f n ∧ expandTerm W s f n = .ok nm ∧ Finds W (dirname f) nm p) ∨
  (∃ (n : Str) (s : Stash) (nm word file loc : Str), WritesInherit W f n ∧ expandTerm W s f n = .ok nm ∧ word ∈ splitNE ' ' nm ∧
    ClassFile word file ∧ loc ∈ [c!"classes", c!"classes-recipe", c!"classes-global"] ∧
    Finds W (dirname f) (pathJoin loc file) p)

/-- a file that `AddFile` reads again although it has been read already -/
def Reread (f : Str) : Prop := (splitext f).2 ∈ [c!".inc", c!".bb", c!".conf"]

/-- the file system has only the given files -/
def OnlyFiles (W : World) (files : List Str) : Prop := ∀ p, W.pathExists p = true → abspath W.cwd p ∈ files

end Oelint.Spec
