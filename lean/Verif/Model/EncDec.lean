import Verif.Model.Addr
/-
Model of lib/encdec.c and lib/crypt/ivkey.c:75-152 and lib/addr/laddr.c:388-402
(`silofs_laddr_as_iv`).  The block cipher (libgcrypt) is a parameter.
-/
namespace Silofs.EncDec
open Silofs Silofs.Addr

/-- A cipher as used by the file system: same length output, decrypt inverts
encrypt for the same key and IV (lib/crypt/cipher.c, libgcrypt). -/
structure Cipher where
  enc : List Nat → List Nat → List Nat → List Nat
  dec : List Nat → List Nat → List Nat → List Nat
  dec_enc : ∀ key iv p, dec key iv (enc key iv p) = p

/-- lib/crypt/ivkey.c:101-107 `silofs_iv_xor_with1`: bytewise XOR. -/
def xorBytes (a b : List Nat) : List Nat := List.zipWith (· ^^^ ·) a b

/-- lib/addr/laddr.c:384-401 `silofs_laddr_as_iv`: XOR of the three 16-byte thirds of
the 48-byte on-disk address. -/
def laddrIv (a : Laddr) : List Nat :=
  let d := laddr48Htox a
  xorBytes (xorBytes (d.take 16) ((d.drop 16).take 16)) (d.drop 32)

structure IvKey where
  key : List Nat
  iv : List Nat

/-- lib/encdec.c:21-32 `resolve_ivkey_of` with lib/crypt/ivkey.c:109-115
`silofs_iv_xor_with2`. -/
def resolveIv (main : IvKey) (a : Laddr) (seed : List Nat) : List Nat :=
  xorBytes main.iv (xorBytes (laddrIv a) seed)

/-- lib/encdec.c:43-52 `silofs_encrypt_view`. -/
def encryptView (C : Cipher) (main : IvKey) (a : Laddr) (seed : List Nat) (view : List Nat) : List Nat :=
  C.enc main.key (resolveIv main a seed) view

/-- lib/encdec.c:63-75 `decrypt_view` of an llink (address and seed IV). -/
def decryptView (C : Cipher) (main : IvKey) (a : Laddr) (riv : List Nat) (view : List Nat) : List Nat :=
  C.dec main.key (resolveIv main a riv) view

end Silofs.EncDec
