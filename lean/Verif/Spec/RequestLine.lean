import Verif.Model.Request
/-
The tokens of a request line. Uses from the model only the types of methods and versions.
-/
namespace Octane

/-- the known method tokens and what they are parsed to -/
def Spec.methodTable : List (Str × RequestMethod) :=
  [(c!"OPTIONS", .options), (c!"GET", .get), (c!"HEAD", .head), (c!"POST", .post), (c!"PUT", .put),
   (c!"DELETE", .delete), (c!"TRACE", .trace), (c!"CONNECT", .connect), (c!"PATCH", .patch)]

/-- the known versions -/
def Spec.versionTable : List (Str × HttpVersion) :=
  [(c!"1.1", .http11), (c!"1.0", .http10), (c!"2.0", .http02), (c!"0.9", .http09)]

end Octane
