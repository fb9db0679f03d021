import Verif.Str.Model
/- Model of `tls/m_tls_hostvalidate.c`: whether the names of a certificate cover a host name.

A certificate is the list of its subject alternative names and the list of its common names, as OpenSSL gives them (bytes with a
length, which may hold zero bytes).  OpenSSL itself is not modelled, nor is the text form of an IP address, which is a parameter.
Strings are lists of bytes without the terminator; `none` is an access outside an object. -/
namespace Verif.Tls
open Verif.Str (eq eqMaxInt explode implode)

/-- `M_tls_verify_host_flags_t`, `tls/m_tls_hostvalidate.h:27-35`. -/
structure Flags where
  cn : Bool := true
  san : Bool := true
  wildcard : Bool := true
  multilevel : Bool := false
  fuzzy : Bool := false
deriving DecidableEq

/-- `M_TLS_VERIFY_HOST_FLAG_NONE`. -/
def noFlags : Flags := ⟨false, false, false, false, false⟩

/-- `M_str_cpy(dest, 256, s)`: what the destination holds (`Verif.Str.cpy_correct`). -/
def cpy256 (s : List UInt8) : List UInt8 := s.take 255

/-- `tls/m_tls_hostvalidate.c:50-90`, `M_tls_verify_host_extract_base_domain`: the result and the base domain. -/
def baseDomain (host : List UInt8) : Option (Bool × List UInt8) :=
  (explode 46 host).bind fun strs =>
    let sects := match strs.getLast? with
      | none => 2
      | some l => if l.length = 2 then 3 else 2
    if sects ≥ strs.length then some (true, cpy256 host)
    else
      let out := implode 46 0 0 ((strs.drop (strs.length - sects)).map some) false
      if out = [] then some (false, cpy256 host) else some (true, cpy256 out)

/-- `tls/m_tls_hostvalidate.c:126-129`: the loop over the parts, from index `i` down to 1. -/
def partsLoop (hp np : List (List UInt8)) : Nat → Option Bool
  | 0 => some true
  | i + 1 => (np[i + 1]?).bind fun n => (hp[i + 1]?).bind fun h => if eq true n h = false then some false else partsLoop hp np i

/-- `tls/m_tls_hostvalidate.c:93-138`, `M_tls_verify_host_match_wildcard`. -/
def matchWildcard (host name : List UInt8) (multi : Bool) : Option Bool :=
  if host = [] ∨ name = [] then some false
  else if eqMaxInt false name [42, 46] 2 = false then some false
  else (explode 46 host).bind fun hp => (explode 46 name).bind fun np =>
    if hp = [] ∨ np = [] then some false
    else if multi = false ∧ hp.length ≠ np.length then some false
    else if hp.length < np.length then some false
    else partsLoop hp np (np.length - 1)

/-- `tls/m_tls_hostvalidate.c:141-175`, `M_tls_verify_host_match`. -/
def hostMatch (host name : List UInt8) (fl : Flags) : Option Bool :=
  if host = [] ∨ name = [] then some false
  else if fl = noFlags then some true
  else if eq true host name then some true
  else (if fl.wildcard then matchWildcard host name fl.multilevel else some false).bind fun w =>
    if w then some true
    else if fl.fuzzy then
      if eq true host [108, 111, 99, 97, 108, 104, 111, 115, 116] then some true
      else (baseDomain host).bind fun hb => if hb.1 = false then some false
        else (baseDomain name).bind fun nb => if nb.1 = false then some false else some (eq true hb.2 nb.2)
    else some false

/-- A subject alternative name. -/
inductive San where
  | dns (s : List UInt8)
  | ip (b : List UInt8)
  | other

/-- The names of a certificate. -/
structure Cert where
  sans : List San
  cns : List (List UInt8)

/-- `tls/m_tls_hostvalidate.c:193-218`: the string a subject alternative name is compared as, if it is.  A name with a zero byte
is passed over. -/
def sanText (ipText : List UInt8 → Option (List UInt8)) : San → Option (List UInt8)
  | .dns s => if s = [] ∨ 0 ∈ s then none else some (cpy256 s)
  | .ip b => (ipText b).map cpy256
  | .other => none

/-- `tls/m_tls_hostvalidate.c:178-229`, `M_tls_verify_host_subjaltname`; the names of all such extensions in one list. -/
def matchSans (ipText : List UInt8 → Option (List UInt8)) (host : List UInt8) (fl : Flags) : List San → Option Bool
  | [] => some false
  | s :: l =>
    match sanText ipText s with
    | none => matchSans ipText host fl l
    | some n => (hostMatch host n fl).bind fun m => if m then some true else matchSans ipText host fl l

/-- `tls/m_tls_hostvalidate.c:232-262`, `M_tls_verify_host_commonname`. -/
def matchCns (host : List UInt8) (fl : Flags) : List (List UInt8) → Option Bool
  | [] => some false
  | n :: l =>
    if n = [] ∨ 0 ∈ n then matchCns host fl l
    else (hostMatch host n fl).bind fun m => if m then some true else matchCns host fl l

/-- `tls/m_tls_hostvalidate.c:265-279`, `M_tls_verify_host`. -/
def verifyHost (ipText : List UInt8 → Option (List UInt8)) (cert : Cert) (host : List UInt8) (fl : Flags) : Option Bool :=
  if host = [] then some false
  else (if fl.san then matchSans ipText host fl cert.sans else some false).bind fun a =>
    if a then some true
    else (if fl.cn then matchCns host fl cert.cns else some false).bind fun b => some b

end Verif.Tls
