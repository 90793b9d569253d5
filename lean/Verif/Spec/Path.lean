import Verif.Basic.Text
/-!
# Names of files
-/
namespace Verif.Spec

/-- `NamesFile path name`: the last component of the path is `name`. -/
inductive NamesFile : Str → Str → Prop where
  | plain (name : Str) : name ≠ [] → '/' ∉ name → NamesFile name name
  | inside (dir name : Str) : name ≠ [] → '/' ∉ name → NamesFile (dir ++ '/' :: name) name

/-- The file name without its last extension. -/
inductive StemOf : Str → Str → Prop where
  | noExtension (name : Str) : '.' ∉ name → StemOf name name
  | current : StemOf ['.'] ['.']
  | parent : StemOf ['.', '.'] ['.', '.']
  | extension (stem ext : Str) : '.' ∉ ext → stem ++ '.' :: ext ≠ ['.'] →
      stem ++ '.' :: ext ≠ ['.', '.'] → StemOf (stem ++ '.' :: ext) stem

end Verif.Spec
