import Verif.Spec.Helper
/-!
# The tables of link constants

model/leo-starlink-constants.h, model/leo-telesat-constants.h and model/leo-oneweb-constants.h list for each constellation the constants of its
gateway and user links.  `SetConstellation` (helper/leo-channel-helper.cc:68-123) uses some of them for the names it knows; frequency and
distance are not used by any code, they tell what the others were computed from.
-/

namespace Verif

/-- One column of a table: `FREQUENCY` (GHz), `PATH_DISTANCE` (km), `ELEVATION_ANGLE` (degrees), `FSPL` (dB). -/
structure LinkConstants where
  name : String
  ghz : Rat
  km : Rat
  elev : Rat
  fspl : Rat
  deriving DecidableEq

/-- model/leo-starlink-constants.h:39, 46-48 and 65, 71-73; model/leo-telesat-constants.h:39, 46-48 and 65, 71-73;
model/leo-oneweb-constants.h:40, 47-49 and 66, 72-74. -/
def linkConstants : List LinkConstants :=
  [⟨"StarlinkGateway", 28.5, 1684, 40, 186.1⟩, ⟨"StarlinkUser", 13.5, 1684, 40, 179.6⟩,
   ⟨"TelesatGateway", 28.5, 2439, 20, 189.3⟩, ⟨"TelesatUser", 13.5, 1504, 55, 178.6⟩,
   ⟨"OneWebGateway", 28.5, 1504, 55, 185.1⟩, ⟨"OneWebUser", 18.5, 2439, 20, 185.5⟩]

end Verif
