/-! # Specification of string helpers -/
namespace Verif.StringsSpec

variable {A : Type}

/-- Parts joined by a delimiter. -/
def join (c : A) : List (List A) → List A
  | [] => []
  | [part] => part
  | part :: rest => part ++ c :: join c rest

end Verif.StringsSpec
