import Verif.Sd.Model
/-
A signed object: the file.
-/
namespace Verif.Sd.Ex
open Verif.Res (Byte)

/-- An element of less than 256 octets. -/
def el (t : Byte) (c : List Byte) : List Byte :=
  if c.length < 128 then t :: BitVec.ofNat 8 c.length :: c else t :: 0x81 :: BitVec.ofNat 8 c.length :: c

def roaType : List Byte := [0x2a, 0x86, 0x48, 0x86, 0xf7, 0x0d, 0x01, 0x09, 0x10, 0x01, 0x18]
def attrType (n : Byte) : List Byte := [0x2a, 0x86, 0x48, 0x86, 0xf7, 0x0d, 0x01, 0x09, n]
def sha : List Byte := el 0x30 (el 6 [0x60, 0x86, 0x48, 0x01, 0x65, 0x03, 0x04, 0x02, 0x01])
def rsa : List Byte := el 0x30 (el 6 [0x2a, 0x86, 0x48, 0x86, 0xf7, 0x0d, 0x01, 0x01, 0x01] ++ [5, 0])

def attr (n : Byte) (v : List Byte) : List Byte := el 0x30 (el 6 (attrType n) ++ el 0x31 v)

/-- The attributes: the content type, this digest, and a time. -/
def attrs (digest : Byte) : List Byte := attr 3 (el 6 roaType) ++ attr 4 (el 4 [digest]) ++ attr 5 (el 0x17 [])

/-- Definite and indefinite length. -/
def definite (c : List Byte) : List Byte := el 0xA0 c
def indefinite (c : List Byte) : List Byte := [0xA0, 0x80] ++ c ++ [0, 0]

/-- The file: these attributes, content and signature. -/
def file (attrs content sig : List Byte) : List Byte :=
  el 0x30 (el 6 [0x2a, 0x86, 0x48, 0x86, 0xf7, 0x0d, 0x01, 0x07, 0x02] ++ el 0xA0 (el 0x30 (
    el 2 [3] ++ el 0x31 sha ++ el 0x30 (el 6 roaType ++ el 0xA0 (el 4 content)) ++ el 0xA0 (el 0x30 (el 4 [0xCE])) ++
    el 0x31 (el 0x30 (el 2 [3] ++ el 0x80 [0xAA, 0xBB] ++ sha ++ attrs ++ rsa ++ el 4 sig)))))

/-- The hash is a sum; certificates are sequences of one string of one octet; a signature is another sum. -/
def crypto : Crypto Byte where
  sha256 := fun c => [c.foldl (· + ·) 0]
  nullParamsOk := false
  decodeCert := fun l => l[4]?
  chainOk := fun c => c == 0xCE
  profileOk := fun _ => true
  extensionsOk := fun _ sid => sid == [0xAA, 0xBB]
  resourcesOk := fun _ => true
  verify := fun _ b s => s == [b.foldl (· + ·) 1]

def roaOid : List Nat := [1, 2, 840, 113549, 1, 9, 16, 1, 24]

def nuls : Nuls := fun _ _ => .never

/-- A file that is accepted, and its signature. -/
def good : List Byte := file (definite (attrs 6)) [1, 2, 3] [0xA4]

theorem accepted : signedObject crypto nuls roaOid good = .ok [1, 2, 3] := by decide +kernel

end Verif.Sd.Ex
