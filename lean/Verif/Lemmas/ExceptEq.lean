/-! Decidable equality of results, for concrete cases. -/
namespace Verif

deriving instance DecidableEq for Except

end Verif
