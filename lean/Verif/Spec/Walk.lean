import Verif.Spec.Url
/-! # Specification: where a path leads -/
namespace Ouro.Spec

/-- The directory one is in, after following the components of a path from the directory `here`: an empty one and `.` lead nowhere, `..` to the directory
above, and above the root is the root. -/
def follow (here : List Bytes) : List Bytes → List Bytes
  | [] => here
  | x :: rest =>
    if x = [] ∨ x = b!"." then follow here rest
    else if x = b!".." then follow here.dropLast rest
    else follow (here ++ [x]) rest

end Ouro.Spec
