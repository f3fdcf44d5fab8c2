import Verif.FaceNbr.Model
/-
Model of the indirect neighbour queries, src/forestclaw2d.c:1825-2382: every process writes, for each
of its exchange patches, the result of all face and corner neighbour queries into an array of `int`,
the arrays travel with the ghost exchange (see `Verif/Exchange`), and the receiver rewrites them in
place. `none` is a failed assertion. Ghost patches are sorted by owner, `proc_offsets` delimits them.
-/
set_option autoImplicit false
set_option linter.unusedVariables false
namespace Fclaw.Indirect
open FaceNbr

/-- All processes: their mesh views and, for each, the local number of its ghosts on their owners
(`piggy3.local_num`) and `proc_offsets`. -/
structure Net where
  nproc : Nat
  mesh : Nat → Mesh
  localNumOf : Nat → Nat → Nat
  offsets : Nat → Nat → Nat

/-- Is bit `k` of the two's complement word set? -/
def bit (k : Nat) (x : Int) : Bool := decide (x / 2 ^ k % 2 = 1)
/-- `x | (1 << k)`. -/
def orBit (k : Nat) (x : Int) : Int := if bit k x then x else x + 2 ^ k
/-- `x & ~(1 << k)`. -/
def clearBit (k : Nat) (x : Int) : Int := if bit k x then x - 2 ^ k else x
/-- `x & ~(3 << 26)`. -/
def clearFlags (x : Int) : Int := clearBit 27 (clearBit 26 x)

/-- `indirect_encode`, src/forestclaw2d.c:1832-1853, on process `o`. -/
def encode (N : Net) (o : Nat) (rproc rpatchno : Int) : Option (Int × Int) :=
  if 0 ≤ rproc ∧ rproc < N.nproc then
    if rproc = o then some (-1, -1)
    else if (N.offsets o rproc.toNat : Int) ≤ rpatchno ∧ rpatchno < N.offsets o (rproc.toNat + 1) then
      some (rproc, N.localNumOf o rpatchno.toNat)
    else none
  else none

/-- The first `n` entries of the arrays `rproc[]`, `rpatchno[]` are encoded. -/
def encodeUpTo (N : Net) (o : Nat) : Nat → List Int → List Int → Option (List Int × List Int)
  | 0, ps, qs => some (ps, qs)
  | n + 1, p :: ps, q :: qs =>
    match encode N o p q, encodeUpTo N o n ps qs with
    | some (p', q'), some (ps', qs') => some (p' :: ps', q' :: qs')
    | _, _ => none
  | _ + 1, _, _ => none

/-- `indirect_match_face`, lines 1855-1868: layout of the words for one face. -/
structure FaceWords where
  rproc : List Int
  rblockno : Int
  rpatchno : List Int
  rfaceno : Int
  deriving DecidableEq

def FaceWords.write (w : FaceWords) : List Int := w.rproc ++ [w.rblockno] ++ w.rpatchno ++ [w.rfaceno]

def readFace (D : Dim) (pi : List Int) : FaceWords :=
  ⟨pi.take D.half, pi[D.half]?.getD 0, (pi.drop (D.half + 1)).take D.half,
    pi[D.half + 1 + D.half]?.getD 0⟩

/-- `indirect_match_corner`, lines 1870-1883. -/
structure CornerWords where
  rproc : Int
  rblockno : Int
  rpatchno : Int
  rcornerno : Int
  deriving DecidableEq

def CornerWords.write (w : CornerWords) : List Int := [w.rproc, w.rblockno, w.rpatchno, w.rcornerno]

def readCorner (pi : List Int) : CornerWords :=
  ⟨pi[0]?.getD 0, pi[1]?.getD 0, pi[2]?.getD 0, pi[3]?.getD 0⟩

/-- The flag for the relation, lines 1947-1951 and 1974-1981. -/
def flagOf (r : Rel) (x : Int) : Int :=
  match r with
  | .halfSize => orBit 26 x
  | .doubleSize => orBit 27 x
  | _ => x

/-- Body of the loop over faces in `fclaw2d_domain_indirect_begin`, lines 1927-1953. -/
def faceChunk (D : Dim) (N : Net) (o b p face : Nat) : Option (List Int) :=
  match faceNeighbors D (N.mesh o) b p face with
  | none => none
  | some r =>
    match encodeUpTo N o (if r.rel = .halfSize then D.half else 1) r.rproc r.rpatchno with
    | none => none
    | some (ps, qs) => some (FaceWords.write ⟨ps, r.rblockno, qs, flagOf r.rel r.rfaceno⟩)

/-- Body of the loop over corners, lines 1955-1990. -/
def cornerChunk (D : Dim) (N : Net) (o b p corner : Nat) : Option (List Int) :=
  match cornerNeighbors D (N.mesh o) b p corner with
  | none => none
  | some r =>
    match r.rel, r.rproc, r.rpatchno with
    | .boundary, _, _ => some (CornerWords.write ⟨-1, r.rblockno, -1, corner⟩)
    | rel, some rp, some rq =>
      match encode N o rp rq with
      | none => none
      | some (p', q') => some (CornerWords.write ⟨p', r.rblockno, q', flagOf rel r.rcorner⟩)
    | _, _, _ => none

/-- Concatenation of the words written by `n` iterations starting at `k`. -/
def concatLoop (f : Nat → Option (List Int)) : Nat → Nat → Option (List Int)
  | 0, _ => some []
  | n + 1, k =>
    match f k, concatLoop f n (k + 1) with
    | some x, some l => some (x ++ l)
    | _, _ => none

/-- The words written for one exchange patch in `fclaw2d_domain_indirect_begin`. -/
def record (D : Dim) (N : Net) (o b p : Nat) : Option (List Int) :=
  match concatLoop (faceChunk D N o b p) D.faces 0, concatLoop (cornerChunk D N o b p) D.children 0 with
  | some l, some l' => some (l ++ l')
  | _, _ => none

/-- `pli_make_key`, lines 2010-2015: `(p << 32) + rpatchno` in 64 bits. -/
def makeKey (p rpatchno : Nat) : Nat := (p * 4294967296 + rpatchno) % 18446744073709551616

/-- The double loop over processes and their ghosts, lines 2104-2126: `(p, ng)`. The inner loop runs
while `ng < proc_offsets[p + 1]`. -/
def ghostLoop (offsets : Nat → Nat) : Nat → Nat → Nat → List (Nat × Nat)
  | 0, _, _ => []
  | n + 1, p, ng =>
    (List.range (offsets (p + 1) - ng)).map (fun i => (p, ng + i)) ++
      ghostLoop offsets n (p + 1) (max ng (offsets (p + 1)))

/-- `pli_keys`. -/
def keys (N : Net) (r : Nat) : List Nat :=
  (ghostLoop (N.offsets r) N.nproc 0 0).map fun x => makeKey x.1 (N.localNumOf r x.2)

/-- `indirect_decode`, lines 2054-2089. The hash table (libsc) contains the addresses of the entries
of `pli_keys`, so a successful lookup yields a position with an equal key. -/
def decode (ks : List Nat) (nproc r : Nat) (rproc rpatchno : Int) : Option (Int × Int × Bool) :=
  let pq : Int × Int := if rproc = r then (-1, -1) else (rproc, rpatchno)
  if pq.1 ≠ -1 then
    if 0 ≤ pq.1 ∧ pq.1 < nproc ∧ 0 ≤ pq.2 then
      let k := makeKey pq.1.toNat pq.2.toNat
      if k ∈ ks then some (pq.1, ks.idxOf k, true) else some (-1, -1, false)
    else none
  else if pq.2 = -1 then some (-1, -1, false) else none

/-- The first `n` entries are decoded; the flag is true if one of them was good. `p` is the owner of
the ghost (assertion `rproc[sf] != p`). -/
def decodeUpTo (ks : List Nat) (nproc r p : Nat) :
    Nat → List Int → List Int → Option (List Int × List Int × Bool)
  | 0, ps, qs => some (ps, qs, false)
  | n + 1, a :: ps, q :: qs =>
    if a = p then none else
    match decode ks nproc r a q, decodeUpTo ks nproc r p n ps qs with
    | some (a', q', g), some (ps', qs', g') => some (a' :: ps', q' :: qs', g || g')
    | _, _ => none
  | _ + 1, _, _ => none

/-- Body of the loop over faces in `fclaw2d_domain_indirect_end`, lines 2145-2186. -/
def decodeFace (D : Dim) (ks : List Nat) (nproc r p : Nat) (pi : List Int) : Option (List Int) :=
  let w := readFace D pi
  match decodeUpTo ks nproc r p (if bit 26 w.rfaceno then D.half else 1) w.rproc w.rpatchno with
  | none => none
  | some (ps, qs, good) =>
    if good then some (FaceWords.write ⟨ps, w.rblockno, qs, w.rfaceno⟩)
    else if ps.head? = some (-1) ∧ qs.head? = some (-1) then
      some (FaceWords.write ⟨(-1) :: List.replicate (D.half - 1) (-1), w.rblockno,
        (-1) :: List.replicate (D.half - 1) (-1), clearFlags w.rfaceno⟩)
    else none

/-- Body of the loop over corners, lines 2188-2213. -/
def decodeCorner (ks : List Nat) (nproc r p : Nat) (pi : List Int) : Option (List Int) :=
  let w := readCorner pi
  if w.rproc = p then none else
  match decode ks nproc r w.rproc w.rpatchno with
  | none => none
  | some (a, q, good) =>
    if good then some (CornerWords.write ⟨a, w.rblockno, q, w.rcornerno⟩)
    else if a = -1 ∧ q = -1 then
      some (CornerWords.write ⟨a, w.rblockno, q, clearFlags w.rcornerno⟩)
    else none

/-- A loop that rewrites `n` consecutive items of `size` words. -/
def rewriteLoop (dec : List Int → Option (List Int)) (size : Nat) : Nat → List Int → Option (List Int)
  | 0, l => some l
  | n + 1, l =>
    match dec (l.take size), rewriteLoop dec size n (l.drop size) with
    | some c, some l' => some (c ++ l')
    | _, _ => none

/-- The part of `fclaw2d_domain_indirect_end` that rewrites the words received with one ghost of
owner `p`. -/
def decodeRecord (D : Dim) (ks : List Nat) (nproc r p : Nat) (l : List Int) : Option (List Int) :=
  let fs := 2 + 2 * D.half
  match rewriteLoop (decodeFace D ks nproc r p) fs D.faces (l.take (fs * D.faces)),
        rewriteLoop (decodeCorner ks nproc r p) 4 D.children (l.drop (fs * D.faces)) with
  | some a, some b => some (a ++ b)
  | _, _ => none

/-- `fclaw2d_domain_indirect_begin` on all processes and `fclaw2d_domain_indirect_end` on `r`: the
words stored for ghost `g` of process `r`. The exchange delivers the words that the owner wrote for
the patch (property C11); the unique insertion of all keys is asserted. -/
def ghostRecord (D : Dim) (N : Net) (r g : Nat) : Option (List Int) :=
  let o := (N.mesh r).ghostToProc g
  let leaf := N.localNumOf r g
  let b := (N.mesh o).quadToTree leaf
  let ks := keys N r
  if ks.Nodup ∧ ks.length = (N.mesh r).ghostNum then
    match record D N o b (leaf - (N.mesh o).before b) with
    | none => none
    | some l => decodeRecord D ks N.nproc r o l
  else none

/-- `fclaw2d_domain_indirect_face_neighbors`, lines 2241-2310, from the words of the face. The
assertion on the block number and the assertions inside FCLAW_ENABLE_DEBUG are left out. -/
def queryFace (D : Dim) (w : FaceWords) : Option FaceResult :=
  let rf := clearFlags w.rfaceno
  if 0 ≤ rf ∧ rf < D.faces * D.half then
    if !bit 26 w.rfaceno && !bit 27 w.rfaceno then
      if w.rproc.head? = some (-1) then
        some ⟨.boundary, List.replicate D.half (-1), w.rblockno, List.replicate D.half (-1), rf⟩
      else some ⟨.sameSize, w.rproc, w.rblockno, w.rpatchno, rf⟩
    else if bit 26 w.rfaceno then
      if bit 27 w.rfaceno then none else some ⟨.halfSize, w.rproc, w.rblockno, w.rpatchno, rf⟩
    else some ⟨.doubleSize, w.rproc, w.rblockno, w.rpatchno, rf⟩
  else none

/-- `fclaw2d_domain_indirect_face_neighbors`, lines 2225-2312. -/
def indirectFace (D : Dim) (N : Net) (r g faceno : Nat) : Option FaceResult :=
  match ghostRecord D N r g with
  | none => none
  | some l => queryFace D (readFace D (l.drop ((2 + 2 * D.half) * faceno)))

/-- `fclaw2d_domain_indirect_corner_neighbor`, lines 2333-2380, from the words of the corner. -/
def queryCorner (D : Dim) (w : CornerWords) : Option (Rel × CornerWords) :=
  let rc := clearFlags w.rcornerno
  if 0 ≤ rc ∧ rc < D.children then
    if !bit 26 w.rcornerno && !bit 27 w.rcornerno then
      if w.rproc = -1 then
        if w.rpatchno = -1 then some (.boundary, ⟨-1, w.rblockno, -1, rc⟩) else none
      else some (.sameSize, ⟨w.rproc, w.rblockno, w.rpatchno, rc⟩)
    else if bit 26 w.rcornerno then
      if bit 27 w.rcornerno then none else some (.halfSize, ⟨w.rproc, w.rblockno, w.rpatchno, rc⟩)
    else some (.doubleSize, ⟨w.rproc, w.rblockno, w.rpatchno, rc⟩)
  else none

/-- `fclaw2d_domain_indirect_corner_neighbor`, lines 2314-2382. -/
def indirectCorner (D : Dim) (N : Net) (r g cornerno : Nat) : Option (Rel × CornerWords) :=
  match ghostRecord D N r g with
  | none => none
  | some l => queryCorner D (readCorner (l.drop ((2 + 2 * D.half) * D.faces + 4 * cornerno)))

end Fclaw.Indirect
