/-
The command lines under which the documentation and the deployment start the server, as lists of arguments (the shell removes the quotes).
-/
import Verif.Model.Page

namespace Swc.Spec

/-- `README.md:67`. -/
def readmeServer : List Str := [str% "--root", str% "../", str% "--repos", str% "polkadot", str% "substrate", str% "cumulus"]

/-- `docker-compose.yml:16`, the service `swc_master`. -/
def composeMaster : List Str :=
  [str% "--root", str% "/repos/", str% "--repos", str% "substrate", str% "polkadot", str% "cumulus", str% "chain", str% "--endpoint", str% "0.0.0.0",
    str% "--cert", str% "/certs/cert.pem", str% "--key", str% "/certs/key.pem"]

/-- `docker-compose.yml:33`, the service `swc_dev`. -/
def composeDev : List Str :=
  [str% "--root", str% "/repos/", str% "--repos", str% "acala", str% "substrate", str% "polkadot", str% "cumulus", str% "chain", str% "--endpoint",
    str% "0.0.0.0", str% "--cert", str% "/certs/cert.pem", str% "--key", str% "/certs/key.pem"]

/-- `Dockerfile:17`: the image as it is, without arguments. -/
def imageLine : List Str := []

/-- All of them. -/
def documentedLines : List (List Str) := [readmeServer, composeMaster, composeDev, imageLine]

/-- The only repository for which the pages know a path pattern, `web/static/common.js:13`. -/
def knownRepository : Str := str% "polkadot-sdk"

end Swc.Spec
