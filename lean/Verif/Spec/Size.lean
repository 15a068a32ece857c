import Verif.Spec.Challenge
import Verif.Model.Face

/-! # How large the CA's replies can become -/

namespace Ndncert

/-- octets of the list of challenges a CA offers, ten for each header -/
def offerOctets (p : CaProfile) : Nat := (p.supportedChallenges.map (fun s => s.length + 10)).sum

/-- octets of the name of the certificate the CA would issue for the pending request -/
def certOctets (env : Env) (r : RequestState) : Nat := nameOctets (keyNameOf r.cert.name ++ [gcomp (bytes! "NDNCERT"), env.version])

/-- octets of the content of a reply to a CHALLENGE for the pending request -/
def challengeOctets (cfg : CaConfig) (env : Env) (r : RequestState) : Nat := certOctets env r + nameOctets cfg.profile.forwardingHint + 150

end Ndncert
