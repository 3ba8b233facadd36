/-!
# The orbit files that come with the module (C113)
-/

namespace Verif.Spec

/-- data/orbits/starlink.csv -/
def starlinkFile : List Char := "1150.0:53.0:32:50\n1110.0:53.8:32:50\n1130.0:74.0:8:50\n1275.0:81.0:5:75\n1325.0:70.0:6:75\n".toList

/-- data/orbits/telesat.csv -/
def telesatFile : List Char := "1000.0:99.5:6:12\n1248.0:37.4:5:9\n".toList

end Verif.Spec
