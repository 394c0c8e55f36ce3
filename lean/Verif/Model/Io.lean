import Verif.Model.Py
/-!
# Pre-trained fitters

Models `/repo/menpofit/io.py`: `PickleWrappedFitter` (`:173-274`), `copy_and_yield` (`:347-354`),
`download_file` (`:357-391`) and `load_fitter` (`:394-424`).  Not modelled: printing, the names of
files and urls, and the default preprocessing (greyscale and crop), which is a parameter.
-/

namespace Menpofit
namespace Io

/-! ### Wrapped fitters -/

/-- A dictionary of keyword arguments. See `/repo/menpofit/io.py:206-208` -/
abbrev Dict (A : Type) := List (String × A)

/-- `d.get(key)`. See `/repo/menpofit/io.py:206-208` -/
def dictGet {A : Type} (d : Dict A) (key : String) : Option A :=
  (d.find? fun x => x.1 = key).map Prod.snd

/-- `d[key] = a`. See `/repo/menpofit/io.py:206-208` -/
def dictPut {A : Type} (d : Dict A) (key : String) (a : A) : Dict A :=
  if d.any fun x => x.1 = key then d.map fun x => if x.1 = key then (key, a) else x
  else d ++ [(key, a)]

/-- `d.update(e)`. See `/repo/menpofit/io.py:208` -/
def update {A : Type} (d e : Dict A) : Dict A := e.foldl (fun d x => dictPut d x.1 x.2) d

/-- The dictionaries in memory, by address. See `/repo/menpofit/io.py:206-208` -/
abbrev Heap (A : Type) := List (Dict A)

/-- `heap[addr]` (an address that is in use). See `/repo/menpofit/io.py:206-208` -/
def deref {A : Type} (h : Heap A) (addr : Nat) : Dict A := (h[addr]?).getD []

/-- A result: final shape, initial shape if any, the shapes if it is iterative, everything else.
See `/repo/menpofit/io.py:221-226` -/
structure WRes (S O : Type) where
  final : S
  initial : Option S
  shapes : Option (List S)
  other : O
  deriving DecidableEq

/-- A transform with its (pseudo)inverse. See `/repo/menpofit/io.py:221-226` -/
structure Transf (S : Type) where
  apply : S → S
  pinv : S → S

variable {I S O A : Type}

/-- A wrapped fitter: the function of the wrapped fitter, the address of the stored keyword arguments
and the preprocessing if any (`/repo/menpofit/io.py:173-179`). -/
structure Wrapped (I S O A : Type) where
  fit : I → S → Dict A → Except PyErr (WRes S O)
  stored : Nat
  preprocess : Option (I → S → Except PyErr (I × Transf S))

/-- The attributes of the result that are overwritten, `/repo/menpofit/io.py:221-226` and
`:268-273`; `eNone` is the exception of `trans.apply(None)`. -/
def mapBack (t : Transf S) (eNone : PyErr) (result : WRes S O) : Except PyErr (WRes S O) :=
  match result.initial with
  | none => .error eNone
  | some i => .ok { result with
      final := t.apply result.final
      initial := some (t.apply i)
      shapes := result.shapes.map fun l => l.map t.apply }

/-- `fit_from_bb`, `/repo/menpofit/io.py:205-227`, and `fit_from_shape`, `:252-274` (the same
code with the other function and arguments).  Returns the memory after the call too. -/
def fitWrapped (w : Wrapped I S O A) (eNone : PyErr) (h : Heap A) (image : I) (shape : S)
    (kwargs : Dict A) : Heap A × Except PyErr (WRes S O) :=
  -- final_kwargs = stored.copy()
  let addr := h.length
  let h := h ++ [deref h w.stored]
  -- final_kwargs.update(kwargs)
  let h := h.set addr (update (deref h addr) kwargs)
  match w.preprocess with
  | none => (h, w.fit image shape (deref h addr))
  | some pre =>
    (h, do
      let q ← pre image shape
      let result ← w.fit q.1 (q.2.pinv shape) (deref h addr)
      mapBack q.2 eNone result)

/-- A sequence of calls. See `/repo/menpofit/io.py:181-274` -/
def fitCalls (w : Wrapped I S O A) (eNone : PyErr) : Heap A → List (I × S × Dict A) →
    Heap A × List (Except PyErr (WRes S O))
  | h, [] => (h, [])
  | h, (image, shape, kwargs) :: calls =>
    let r := fitWrapped w eNone h image shape kwargs
    let q := fitCalls w eNone r.1 calls
    (q.1, r.2 :: q.2)

/-! ### Copying -/

/-- `fsrc.read(length)`: with a negative length everything, otherwise at most `length` bytes, and at
least one unless the data or the length is exhausted.  `want` is how many bytes the network
has ready.  Returns what is read and what remains. See `/repo/menpofit/io.py:350` -/
def readChunk (want : Nat) (length : Int) (data : List UInt8) : List UInt8 × List UInt8 :=
  if length < 0 then (data, [])
  else
    let n := min (max want 1) length.toNat
    (data.take n, data.drop n)

theorem read_rest (want : Nat) (length : Int) (data : List UInt8) :
    (readChunk want length data).1 ++ (readChunk want length data).2 = data := by
  unfold readChunk
  split <;> simp

/-- `copy_and_yield`, `/repo/menpofit/io.py:347-354`: the bytes written to the destination and the
number of yields; `ready i` is what the network has ready at read `i`. -/
def copyAndYield (ready : Nat → Nat) (length : Int) (i : Nat) (src dst : List UInt8) :
    List UInt8 × Nat :=
  match h : (readChunk (ready i) length src).1 with
  | [] => (dst, 0)
  | b :: bs =>
    let r := copyAndYield ready length (i + 1) (readChunk (ready i) length src).2 (dst ++ (b :: bs))
    (r.1, r.2 + 1)
termination_by src.length
decreasing_by
  have := congrArg List.length (read_rest (ready i) length src)
  rw [List.length_append, h] at this
  simp at this
  omega

/-! ### Loading -/

/-- Where a process stops. See `/repo/menpofit/io.py:394-424` -/
inductive Crash where
  /-- `urlopen` raises: nothing was opened. -/
  | connect
  /-- An exception or the end of the process while downloading, after `k` bytes were written. -/
  | downloading (k : Nat)
  /-- The process ends (or is interrupted) while the file is being loaded. -/
  | loading
  deriving DecidableEq

/-- What a call of `load_fitter` ends with. See `/repo/menpofit/io.py:394-424` -/
inductive Outcome (F : Type) where
  | returned (f : F)
  | raised (e : PyErr)
  | crashed
  deriving DecidableEq

/-- `load_fitter`, `/repo/menpofit/io.py:394-424`, with `download_file` (`:357-391`): `file` is the
content at the path if it exists, `sent` the bytes the server sends (which are fewer than it should if
the connection is closed early: `read` reports the end of the data then), `loads` is
`import_pickle(path)()`.  Returns the file and the outcome afterwards, and whether a
download was started. -/
def loadFitter {F : Type} (loads : List UInt8 → Except PyErr F) (sent : List UInt8)
    (crash : Option Crash) (file : Option (List UInt8)) :
    Option (List UInt8) × Outcome F × Bool :=
  match (match file with
      | some c => .inl (c, false)
      | none => match crash with
        | some .connect => .inr (none, .raised .ioError, true)
        | some (.downloading k) => .inr (some (sent.take k), .crashed, true)
        | _ => .inl (sent, true)
      : (List UInt8 × Bool) ⊕ (Option (List UInt8) × Outcome F × Bool)) with
  | .inr r => r
  | .inl (c, d) =>
    if crash = some .loading then (some c, .crashed, d)
    else match loads c with
      | .ok f => (some c, .returned f, d)
      | .error e => (none, .raised e, d)

/-- A history of calls: for each the bytes sent and the crash if any.
See `/repo/menpofit/io.py:394-424` -/
def history {F : Type} (loads : List UInt8 → Except PyErr F) :
    List (List UInt8 × Option Crash) → Option (List UInt8) → Option (List UInt8)
  | [], file => file
  | (sent, crash) :: cs, file => history loads cs (loadFitter loads sent crash file).1

end Io
end Menpofit
