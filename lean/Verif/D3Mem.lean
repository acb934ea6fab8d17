import Verif.BinoutMem
import Verif.D3Titles
/-!
# The memory and the files of a d3plot

`d3plot_open`, the functions that read, and `d3plot_close` once more, with the blocks of memory they allocate and
release and the handles of the files they use. The values are those of `Verif.D3Buffer`, `Verif.D3Plot` and
`Verif.D3Read`; `Verif.Props.D3Mem` proves that the results agree.

Thread safe build, one thread. Simplifications: `malloc`, `realloc` and `fopen` do not fail; a `FILE` is one block;
`realloc` always moves the block. A mutex has no memory of its own (`pthread_mutex_t` is part of the structure). Writing
into `data_pointers` is only modelled when the array grows. `initial_node_coords` and `initial_node_coords_32` are not
modelled (they stay null unless IU is 2; files with IU = 2 that have states and nodes are rejected,
`c32_displacements_rejected`).
-/

namespace Dyna.D3Mem

open Dyna.KeyMem Dyna.BinoutMem Dyna.D3

/-- `sync_file_t`: the block of the `FILE`, and whether the mutex is locked. Code: `/repo/src/multi_file.h:38-41`. -/
structure HandleM where
  fp : Nat
  locked : Bool
deriving DecidableEq, Repr

/-- `multi_file_t`: the blocks of `file_path` and of `file_handles`, and the handles.
Code: `/repo/src/multi_file.h:43-52`. -/
structure FileD where
  path : Nat
  arr : Option Nat
  hs : List HandleM
deriving DecidableEq, Repr

/-- `d3_buffer`: contents of the files, size of a word, the blocks of `files`, `root_file_name` and `error_string`, and
the `multi_file_t` of each file. Code: `/repo/src/d3_buffer.h:45-56`. -/
structure BufM where
  mem : Mem
  files : List Bytes
  ws : Nat
  arr : Option Nat
  root : Option Nat
  err : Option Nat
  fs : List FileD

/-- `d3_pointer` with a handle: index of the handle and its `FILE` (`multi_file_index_t`).
Code: `/repo/src/d3_buffer.h:33-37`, multi_file.h:33-36. -/
structure PosM where
  pos : Pos
  idx : Nat
  fp : Nat
deriving DecidableEq, Repr

/-- A `d3_pointer`; `none` is one without a handle. Code: `/repo/src/d3_buffer.h:33-37`. -/
abbrev PtrM := Option PosM

/-! ## Handles -/

/-- The first handle that is not in use (`sync_trylock`). Code: `/repo/src/multi_file.c:84-111`. -/
def firstFree (hs : List HandleM) : Option Nat := hs.findIdx? (fun h => !h.locked)

/-- Lock or unlock a handle. Code: `/repo/src/multi_file.c:87`, multi_file.c:151. -/
def setLock (hs : List HandleM) (i : Nat) (b : Bool) : List HandleM :=
  match hs[i]? with
  | none => hs
  | some h => hs.set i { h with locked := b }

/-- `multi_file_access` if no handle is free: a new one is made. Code: `/repo/src/multi_file.c:113-145`. -/
def newHandle (m : Mem) (f : FileD) : Res (Mem × FileD × Nat × Nat) := do
  let g ← m.realloc f.arr
  g.1.use f.path
  .ok (g.1.alloc.1, { f with arr := some g.2, hs := f.hs ++ [⟨g.1.alloc.2, true⟩] }, f.hs.length, g.1.alloc.2)

/-- `multi_file_access`: the result is the index of a handle and its `FILE`. Code: `/repo/src/multi_file.c:80-145`. -/
def accessM (m : Mem) (f : FileD) : Res (Mem × FileD × Nat × Nat) :=
  match firstFree f.hs with
  | none => newHandle m f
  | some i => do
    useArr m f.arr
    match f.hs[i]? with
    | none => .ub
    | some h => .ok (m, { f with hs := setLock f.hs i true }, i, h.fp)

/-- `multi_file_return`: unlocking a mutex that is not locked is undefined. Code: `/repo/src/multi_file.c:147-155`. -/
def returnM (m : Mem) (f : FileD) (i : Nat) : Res FileD := do
  useArr m f.arr
  match f.hs[i]? with
  | none => .ub
  | some h => if h.locked then .ok { f with hs := setLock f.hs i false } else .ub

/-- `multi_file_access(&buffer->files[i].file)`. Code: `/repo/src/d3_buffer.c:546-548`. -/
def BufM.access (x : BufM) (i : Nat) : Res (BufM × Nat × Nat) := do
  useArr x.mem x.arr
  match x.fs[i]? with
  | none => .ub
  | some f => do
    let r ← accessM x.mem f
    .ok ({ x with mem := r.1, fs := x.fs.set i r.2.1 }, r.2.2)

/-- `multi_file_return(&buffer->files[i].file, index)`. Code: `/repo/src/d3_buffer.c:710-711`. -/
def BufM.giveBack (x : BufM) (i idx : Nat) : Res BufM := do
  useArr x.mem x.arr
  match x.fs[i]? with
  | none => .ub
  | some f => do
    let f' ← returnM x.mem f idx
    .ok { x with fs := x.fs.set i f' }

/-- `d3_pointer_close`. Code: `/repo/src/d3_buffer.c:707-722`. -/
def closeM (x : BufM) : PtrM → Res BufM
  | none => .ub
  | some q => x.giveBack q.pos.file q.idx

/-! ## The buffer -/

/-- `buffer->error_string` is set (`ERROR_AND_NO_RETURN_BUFFER_PTR`). Code: `/repo/src/d3_buffer.c:47-51`. -/
def setErr (x : BufM) : Res BufM := do
  let m ← x.mem.freeOpt x.err
  .ok { x with mem := m.alloc.1, err := some m.alloc.2 }

/-- `free(buffer->error_string); buffer->error_string = NULL`. Code: `/repo/src/d3plot_state.c:148-150`. -/
def freeErr (x : BufM) : Res BufM := do
  let m ← x.mem.freeOpt x.err
  .ok { x with mem := m, err := none }

/-- `d3_buffer_seek`. Code: `/repo/src/d3_buffer.c:514-705`. -/
def seekM (x : BufM) (word : Nat) : Res (BufM × PtrM) :=
  match locate x.files 0 (word * x.ws % u64) with
  | none => do
    let x ← setErr x
    .ok (x, none)
  | some (i, p) => do
    let r ← x.access i
    .ok (r.1, some ⟨⟨i, p, word⟩, r.2.1, r.2.2⟩)

/-- `d3_buffer_next_file`. Code: `/repo/src/d3_buffer.c:437-512`. -/
def nextFileM (x : BufM) (p : PtrM) : Res (BufM × PtrM) :=
  match p with
  | none => .ub
  | some q => do
    useArr x.mem x.arr
    x.mem.use q.fp
    match x.files[q.pos.file]? with
    | none => .ub
    | some cur => do
      let x ← closeM x (some q)
      if q.pos.file + 1 = x.files.length then .ok (x, none)
      else do
        let r ← x.access (q.pos.file + 1)
        .ok (r.1, some ⟨⟨q.pos.file + 1, 0, q.pos.word + (cur.length - q.pos.pos) / x.ws⟩, r.2.1, r.2.2⟩)

/-- Everything that is missing is in the current file. Code: `/repo/src/d3_buffer.c:314-328`. -/
def readHereM (cur : Bytes) (x : BufM) (q : PosM) (need : Nat) (acc : Bytes) : Res (BufM × PtrM × Bytes) := do
  x.mem.use q.fp
  .ok (x, some { q with pos := ⟨q.pos.file, q.pos.pos + need, q.pos.word + need / x.ws⟩ },
    acc ++ (cur.drop q.pos.pos).take need)

/-- The rest of the current file is read, then the next file. Code: `/repo/src/d3_buffer.c:330-345`. -/
def advanceM (cur : Bytes) (x : BufM) (q : PosM) : Res (BufM × PtrM) := do
  x.mem.use q.fp
  nextFileM x (some { q with pos :=
    ⟨q.pos.file, q.pos.pos + (cur.length - q.pos.pos), q.pos.word + (cur.length - q.pos.pos) / x.ws⟩ })

/-- There is no other file. Code: `/repo/src/d3_buffer.c:346-351`. -/
def noMoreM (x : BufM) (acc : Bytes) : Res (BufM × PtrM × Bytes) := do
  let y ← setErr x
  .ok (y, none, acc)

/-- The loop over the files (`rest` are the contents of the files behind `cur`).
Code: `/repo/src/d3_buffer.c:307-357`. -/
def readLoopM : (rest : List Bytes) → (cur : Bytes) → BufM → PosM → (need : Nat) → (acc : Bytes) →
    Res (BufM × PtrM × Bytes)
  | [], cur, x, q, need, acc =>
    if cur.length - q.pos.pos ≥ need then readHereM cur x q need acc
    else do
      let r ← advanceM cur x q
      match r.2 with
      | none => noMoreM r.1 (acc ++ cur.drop q.pos.pos)
      | some _ => .ub
  | f :: rest, cur, x, q, need, acc =>
    if cur.length - q.pos.pos ≥ need then readHereM cur x q need acc
    else do
      let r ← advanceM cur x q
      match r.2 with
      | none => noMoreM r.1 (acc ++ cur.drop q.pos.pos)
      | some q' => readLoopM rest f r.1 q' (need - (cur.length - q.pos.pos)) (acc ++ cur.drop q.pos.pos)

/-- `d3_buffer_read_words`. Code: `/repo/src/d3_buffer.c:282-359`. -/
def readWordsM (x : BufM) (p : PtrM) (n : Nat) : Res (BufM × PtrM × Bytes) :=
  match p with
  | none => .ub
  | some q => do
    useArr x.mem x.arr
    x.mem.use q.fp
    match x.files[q.pos.file]? with
    | none => .ub
    | some cur =>
      if cur.length - q.pos.pos ≥ n * x.ws % u64 then
        if n * x.ws ≤ cur.length - q.pos.pos then
          .ok (x, some { q with pos := ⟨q.pos.file, q.pos.pos + n * x.ws, q.pos.word + n⟩ },
            (cur.drop q.pos.pos).take (n * x.ws))
        else do
          let y ← setErr x
          .ok (y, some { q with pos := ⟨q.pos.file, cur.length, q.pos.word⟩ }, cur.drop q.pos.pos)
      else readLoopM (x.files.drop (q.pos.file + 1)) cur x q (n * x.ws % u64) []

/-- `d3_buffer_read_words_at`: after an error the message is put into another one. Code: `/repo/src/d3_buffer.c:361-377`. -/
def readWordsAtM (x : BufM) (n word : Nat) : Res (BufM × PtrM × Bytes) := do
  let r ← seekM x word
  if r.1.err.isSome then do
    useArr r.1.mem r.1.err
    let y ← setErr r.1
    .ok (y, r.2, [])
  else readWordsM r.1 r.2 n

/-- `d3_buffer_skip_words`. Code: `/repo/src/d3_buffer.c:409-429`. -/
def skipWordsM (x : BufM) (p : PtrM) (n : Nat) : Res (BufM × PtrM) :=
  match p with
  | none => do
    let y ← setErr x
    .ok (y, none)
  | some q =>
    if ulongMax - n ≤ q.pos.word then do
      let y ← setErr x
      let y ← closeM y (some q)
      .ok (y, none)
    else do
      let y ← closeM x (some q)
      seekM y (q.pos.word + n)

/-- `d3_buffer_skip_bytes`. Code: `/repo/src/d3_buffer.c:431-436`. -/
def skipBytesM (x : BufM) (p : PtrM) (n : Nat) : Res (BufM × PtrM) := skipWordsM x p (n / x.ws)

/-! ## Opening the buffer -/

/-- One of the control values (e.g. `/repo/src/d3_buffer.c:147-153`): read, close, and use the default after an error. -/
def probeM (x : BufM) (word dflt : Nat) : Res (BufM × Nat) := do
  let r ← readWordsAtM x 1 word
  let y ← closeM r.1 r.2.1
  if y.err.isSome then do
    let z ← freeErr y
    .ok (z, dflt)
  else .ok (y, D3.leNat r.2.2)

/-- The five values. Code: `/repo/src/d3_buffer.c:144-181`. -/
def probeAllM (x : BufM) : Res (BufM × Bool) := do
  let a ← probeM x 15 0
  let b ← probeM a.1 17 0
  let c ← probeM b.1 11 0
  let d ← probeM c.1 19 999
  let e ← probeM d.1 22 999
  .ok (e.1, makesSense a.2 b.2 c.2 d.2 e.2)

/-- `multi_file_open`; `abs` is `path_is_abs`. Code: `/repo/src/multi_file.c:35-55`. -/
def mfOpenD (abs : Bool) (m : Mem) : Res (Mem × FileD) :=
  if abs then .ok (m.alloc.1, ⟨m.alloc.2, none, []⟩)
  else do
    let m' ← m.alloc.1.alloc.1.free m.alloc.2
    .ok (m', ⟨m.alloc.1.alloc.2, none, []⟩)

/-- The loop that opens the files. Code: `/repo/src/d3_buffer.c:101-131`. -/
def openFilesM (abs : Bool) (m : Mem) : Nat → Res (Mem × List FileD)
  | 0 => .ok (m, [])
  | n + 1 => do
    let f ← mfOpenD abs m
    let r ← openFilesM abs f.1 n
    .ok (r.1, f.2 :: r.2)

/-- The size of a word is found out. Code: `/repo/src/d3_buffer.c:141-256`. -/
def detectM (x : BufM) : Res BufM := do
  let arr ← x.mem.realloc x.arr
  let a ← probeAllM { x with mem := arr.1, arr := some arr.2, ws := 4 }
  let b ← probeAllM { a.1 with ws := 8 }
  if (!a.2 && !b.2) || (a.2 && b.2) then setErr b.1
  else .ok { b.1 with ws := 4 + 4 * (if b.2 then 1 else 0) }

/-- `d3_buffer_open` for a family with these contents. The name buffer is released behind the loop.
Code: `/repo/src/d3_buffer.c:69-256`. -/
def openBufM (abs : Bool) (m : Mem) (files : List Bytes) : Res BufM := do
  let r ← openFilesM abs m.alloc.1.alloc.1.alloc.1 files.length
  let m' ← r.1.free m.alloc.1.alloc.1.alloc.2
  let x : BufM := ⟨m', files, 0, some m.alloc.2, some m.alloc.1.alloc.2, none, r.2⟩
  if files = [] then setErr x else detectM x

/-- `multi_file_close`. Code: `/repo/src/multi_file.c:57-78`. -/
def mfCloseD (m : Mem) (f : FileD) : Res Mem := do
  let m ← m.free f.path
  let m ← m.freeAll (f.hs.map (·.fp))
  m.freeOpt f.arr

/-- The loop that closes the files. Code: `/repo/src/d3_buffer.c:261-266`. -/
def closeFilesM (m : Mem) : List FileD → Res Mem
  | [] => .ok m
  | f :: fs => do
    let m ← mfCloseD m f
    closeFilesM m fs

/-- The files can only be reached through the array `files`. Code: `/repo/src/d3_buffer.c:261-266`. -/
def useFiles (x : BufM) : Res Unit := if x.fs = [] then .ok () else useArr x.mem x.arr

/-- `d3_buffer_close`. Code: `/repo/src/d3_buffer.c:258-280`. -/
def closeBufM (x : BufM) : Res BufM := do
  useFiles x
  let m ← closeFilesM x.mem x.fs
  let m ← m.freeOpt x.arr
  let m ← m.freeOpt x.err
  let m ← m.freeOpt x.root
  .ok ⟨m, [], x.ws, none, none, none, []⟩

/-! ## Opening -/

/-- `d3plot_file`: the buffer and the blocks of `error_string` and `data_pointers`. Code: `/repo/src/d3plot.h:128-137`. -/
structure Han where
  x : BufM
  perr : Option Nat
  dp : Option Nat

/-- The file and the local variable `d3_ptr` of `d3plot_open`. Code: `/repo/src/d3plot.c:56-75`. -/
structure SM where
  h : Han
  p : PtrM

/-- A part of `d3plot_open`; `none` means that the function returns with `error_string` set.
Code: `/repo/src/d3plot.c:56-466`. -/
def MM (α : Type) : Type := SM → Res (SM × Option α)

/-- Continue if there was no error. Auxiliary of the model, no code of its own. -/
def MM.next {α β : Type} (f : α → MM β) : SM × Option α → Res (SM × Option β)
  | (s, none) => .ok (s, none)
  | (s, some a) => f a s

instance : Monad MM where
  pure a := fun s => .ok (s, some a)
  bind m f := fun s => (m s) >>= MM.next f

/-- `plot_file->error_string` is set (`ERROR_AND_NO_RETURN_PTR`). Code: `/repo/src/d3plot_error_macros.h:33-37`. -/
def setPErr (h : Han) : Res Han := do
  let m ← h.x.mem.freeOpt h.perr
  .ok { h with x := { h.x with mem := m.alloc.1 }, perr := some m.alloc.2 }

/-- `D3PLOT_CLEAR_ERROR_STRING`. Code: `/repo/src/d3plot_error_macros.h:72-74`. -/
def clearPErr (h : Han) : Res Han := do
  let m ← h.x.mem.freeOpt h.perr
  .ok { h with x := { h.x with mem := m }, perr := none }

/-- `error_string` is set and the function returns; the pointer stays as it is.
Code: `/repo/src/d3plot_error_macros.h:33-43` and d3plot.c:395-398. -/
def failM {α : Type} : MM α := fun s => do
  let h ← setPErr s.h
  .ok ({ s with h := h }, none)

/-- `ERROR_AND_RETURN`: closes the pointer first. Code: `/repo/src/d3plot_error_macros.h:44-51`. -/
def failCloseM {α : Type} : MM α := fun s => do
  let y ← closeM s.h.x s.p
  let h ← setPErr { s.h with x := y }
  .ok (⟨h, none⟩, none)

/-- Undefined behaviour. Auxiliary of the model, no code of its own. -/
def undefM {α : Type} : MM α := fun _ => .ub

/-- `d3_buffer_read_words` of `n` words. Code: `/repo/src/d3_buffer.c:282-359`. -/
def rdBytesM (n : Nat) : MM Bytes := fun s => do
  let r ← readWordsM s.h.x s.p n
  .ok (⟨{ s.h with x := r.1 }, r.2.1⟩, some r.2.2)

/-- Read a word into a variable that has been set to 0. Code: `/repo/src/d3plot.c:37-40, 49-51`. -/
def rdM : MM Nat := do
  let bytes ← rdBytesM 1
  pure (D3.leNat bytes)

/-- `READ_CONTROL_DATA_PLOT_FILE_SIGNED_WORD`. Code: `/repo/src/d3plot.c:41-48`. -/
def rdSignedM : MM Int := fun s => (do
  let w ← rdM
  pure (signed s.h.x.ws w) : MM Int) s

/-- `d3_buffer_skip_words`. Code: `/repo/src/d3_buffer.c:409-429`. -/
def skipM (n : Nat) : MM Unit := fun s => do
  let r ← skipWordsM s.h.x s.p n
  .ok (⟨{ s.h with x := r.1 }, r.2⟩, some ())

/-- A skip that is only done if a condition holds. Code: `/repo/src/d3plot_state.c:183-300`. -/
def skipIfM (c : Prop) [Decidable c] (n : Nat) : MM Unit := if c then skipM n else pure ()

/-- `d3_buffer_skip_bytes`. Code: `/repo/src/d3_buffer.c:431-436`. -/
def skipBM (n : Nat) : MM Unit := fun s => skipM (n / s.h.x.ws) s

/-- Whether `buffer.error_string` is set. Code: `/repo/src/d3_buffer.h:45-56`. -/
def hasErrM : MM Bool := fun s => .ok (s, some s.h.x.err.isSome)

/-- `free(buffer.error_string); buffer.error_string = NULL`. Code: `/repo/src/d3plot_state.c:148-150`. -/
def clearErrM : MM Unit := fun s => do
  let y ← freeErr s.h.x
  .ok ({ s with h := { s.h with x := y } }, some ())

/-- `d3_ptr.cur_word`. Code: `/repo/src/d3_buffer.h:33-37`. -/
def curWordM : MM Nat := fun s => .ok (s, some ((s.p.map (·.pos.word)).getD ulongMax))

/-- Code: `/repo/src/d3_buffer.h:45-56`. -/
def wordSizeM : MM Nat := fun s => .ok (s, some s.h.x.ws)

/-- `d3_buffer_next_file`; the result tells whether there was another file. Code: `/repo/src/d3_buffer.c:437-512`. -/
def toNextFileM : MM Bool := fun s => do
  let r ← nextFileM s.h.x s.p
  .ok (⟨{ s.h with x := r.1 }, r.2⟩, some r.2.isSome)

/-- Another state: `data_pointers` grows. Code: `/repo/src/d3plot_state.c:323-332`. -/
def growM (d : Ptrs) (start : Nat) : MM (Ptrs × D3.Found) := fun s => do
  let r ← s.h.x.mem.realloc s.h.dp
  .ok ({ s with h := { s.h with x := { s.h.x with mem := r.1 }, dp := some r.2 } }, some (d, .state start))

/-- Models `/repo/src/d3plot.c:102-148`. -/
def readRawM : MM Raw := do
  let ndim ← rdM
  let numnp ← rdM
  let icode ← rdM
  let nglbv ← rdM
  let it ← rdM
  let iu ← rdM
  let iv ← rdM
  let ia ← rdM
  let nel8 ← rdSignedM
  let nummat8 ← rdM
  let numds ← rdM
  let numst ← rdM
  let nv3d ← rdM
  let nel2 ← rdM
  let nummat2 ← rdM
  let nv1d ← rdM
  let nel4 ← rdM
  let nummat4 ← rdM
  let nv2d ← rdM
  let neiph ← rdM
  let neips ← rdM
  let maxint ← rdSignedM
  let nmsph ← rdM
  skipM 1
  let narbs ← rdM
  let nelt ← rdM
  let nummatt ← rdM
  let nv3dt ← rdM
  let ioshl0 ← rdM
  let ioshl1 ← rdM
  let ioshl2 ← rdM
  let ioshl3 ← rdM
  let ialemat ← rdM
  let ncfdv1 ← rdM
  skipM 1
  let nadapt ← rdM
  let nmmat ← rdM
  skipM 1
  skipM 1
  let npefg ← rdM
  let nel48 ← rdM
  let idtdt ← rdM
  let extra ← rdM
  skipM 6
  pure ⟨ndim, numnp, icode, nglbv, it, iu, iv, ia, nel8, nummat8, numds, numst, nv3d, nel2, nummat2,
    nv1d, nel4, nummat4, nv2d, neiph, neips, maxint, nmsph, narbs, nelt, nummatt, nv3dt, ioshl0, ioshl1,
    ioshl2, ioshl3, ialemat, ncfdv1, nadapt, nmmat, npefg, nel48, idtdt, extra⟩

/-- Skip nine words for every part of higher order elements (`/repo/src/d3plot.c:176-182`). -/
def skipPartsM : Nat → MM Unit
  | 0 => pure ()
  | n + 1 => do
    skipM 9
    skipPartsM n

/-- Models `/repo/src/d3plot.c:152-207`. -/
def readExtraM (extra : Nat) : MM Extra :=
  if extra > 0 then do
    let nel20 ← rdM
    let nt3d ← rdM
    let nel27 ← rdM
    let neipb ← rdM
    let nel21p ← rdM
    let nel15t ← rdM
    let soleng ← rdM
    let nel20t ← rdM
    let nel40p ← rdM
    let nel64 ← rdM
    let quadr ← rdM
    let cubic ← rdM
    let tsheng ← rdM
    let nbranch ← rdM
    let penout ← rdM
    let engout ← rdM
    let bemeng ← rdM
    let kineng ← rdM
    skipM (sub64 extra 18)
    if quadr > 0 || cubic > 0 then do
      let npart ← rdM
      skipPartsM npart
      pure ⟨nel20, nt3d, nel27, neipb, nel21p, nel15t, soleng, nel20t, nel40p, nel64, quadr, cubic,
        tsheng, nbranch, penout, engout, bemeng, kineng, npart⟩
    else
      pure ⟨nel20, nt3d, nel27, neipb, nel21p, nel15t, soleng, nel20t, nel40p, nel64, quadr, cubic,
        tsheng, nbranch, penout, engout, bemeng, kineng, 0⟩
  else pure {}

/-- Models `_d3plot_read_geometry_data` (`/repo/src/d3plot_data.c:42-100`). -/
def readGeometryM (c : Cda) (d : Ptrs) : MM Ptrs := do
  let start ← curWordM
  if c.packed then failM
  else do
    let g := geometry c start d
    skipM (sub64 g.2 start)
    if ← hasErrM then failM else pure g.1

/-- Models `_d3plot_read_user_identification_numbers` (`/repo/src/d3plot_data.c:102-251`); the
second result is NUMRBS. -/
def readUserIdsM (c : Cda) (d : Ptrs) : MM (Ptrs × Nat) :=
  if c.raw.narbs = 0 then pure (d, 0)
  else do
    let start ← curWordM
    let nsort ← rdSignedM
    if ← hasErrM then failM else do
    skipM 4
    let nsortd ← rdM
    let nsrhd ← rdM
    let nsrbd ← rdM
    let nsrsd ← rdM
    let nsrtd ← rdM
    if ← hasErrM then failM
    else if nsortd ≠ c.raw.numnp then failM
    else if nsrhd ≠ toU64 c.raw.nel8 then failM
    else if nsrbd ≠ c.raw.nel2 then failM
    else if nsrsd ≠ c.raw.nel4 then failM
    else if nsrtd ≠ c.raw.nelt then failM
    else do
    let (numrbs, nmmat) ← (if nsort < 0 then do
        skipM 4
        let numrbs ← rdM
        let nmmat ← rdM
        pure (numrbs, nmmat)
      else pure (0, c.raw.nmmat) : MM (Nat × Nat))
    if nsort < 0 ∧ (← hasErrM) then failM else do
    let p0 ← curWordM
    let p1 := (p0 + nsortd) % u64
    let p2 := (p1 + nsrhd) % u64
    let p3 := (p2 + nsrbd) % u64
    let p4 := (p3 + nsrsd) % u64
    let p5 := (p4 + nsrtd) % u64
    let p6 := (p5 + 3 * nmmat) % u64
    skipM (sub64 p6 p0)
    if ← hasErrM then failM else do
    let fin ← curWordM
    if sub64 fin start ≠ c.raw.narbs then failM
    else pure ({ d with
      nodeIds := p0, el8Ids := p1, el2Ids := p2, el4Ids := p3, eltIds := p4
      partIds := if nsort < 0 then p5 else d.partIds }, numrbs)

/-- Models `_d3plot_read_extra_node_connectivity` (`/repo/src/d3plot_data.c:253-323`). -/
def readExtraConnectivityM (c : Cda) : MM Unit := do
  skipM (extraConnectivity c % u64)
  if ← hasErrM then failM else pure ()

/-- Models `_d3plot_read_adapted_element_parent_list` (`/repo/src/d3plot_data.c:325-345`). -/
def readAdaptedM (c : Cda) : MM Unit :=
  if c.raw.nadapt = 0 then pure ()
  else do
    skipM (2 * c.raw.nadapt % u64)
    if ← hasErrM then failM else pure ()

/-- Models `_d3plot_read_header` (`/repo/src/d3plot_data.c:347-454`); `fuel` bounds the number of
blocks. -/
def readHeaderM (d : Ptrs) : (fuel : Nat) → MM Ptrs
  | 0 => failM
  | fuel + 1 => do
    let ws ← wordSizeM
    let bytes ← rdBytesM 1
    if ← hasErrM then failM
    else if D3.leNat bytes = 90000 then do
      skipBM 72
      if ← hasErrM then failM else readHeaderM d fuel
    else if D3.leNat bytes = 90001 then do
      let numprop ← rdM
      if ← hasErrM then failM else do
      let cur ← curWordM
      skipBM ((ws + 72) * numprop % u64)
      if ← hasErrM then failM else readHeaderM { d with partTitles := cur } fuel
    else if D3.leNat bytes = 90002 then do
      let numcon ← rdM
      if ← hasErrM then failM else do
      skipBM ((ws + 72) * numcon % u64)
      if ← hasErrM then failM else readHeaderM d fuel
    else if D3.leNat bytes = 900100 then do
      let nline ← rdM
      if ← hasErrM then failM else do
      skipBM (80 * nline % u64)
      if ← hasErrM then failM else readHeaderM d fuel
    else if bytes = eofBytes ws then pure d
    else failM

/-- Skip several blocks one after the other. Code: `/repo/src/d3plot_state.c:183-300`. -/
def skipAllM : List Nat → MM Unit
  | [] => pure ()
  | n :: rest => do
    skipM n
    skipAllM rest

/-- `buffer.error_string` is freed and 0 is returned (e.g. `/repo/src/d3plot_state.c:148-153`)
if it is set, otherwise continue. -/
def orStopM (d : Ptrs) (m : MM (Ptrs × D3.Found)) : MM (Ptrs × D3.Found) := do
  if ← hasErrM then do
    clearErrM
    pure (d, .finish)
  else m

/-- The thermal, element and deletion data (`/repo/src/d3plot_state.c:249-333`). -/
def readElementsM (c : Cda) (first : Bool) (start : Nat) (d : Ptrs) : MM (Ptrs × D3.Found) := do
  skipM (c.ext.nt3d * toU64 c.raw.nel8 % u64)
  orStopM d do
  let elemStart ← curWordM
  let d := setSolid first elemStart start d
  skipM (c.raw.nv3d * toU64 c.raw.nel8 % u64)
  let w ← curWordM
  let d := setBeam first w start d
  skipM (c.raw.nv1d * c.raw.nel2 % u64)
  let w ← curWordM
  let d := setShell first w start d
  skipM (c.raw.nv2d * c.raw.nel4 % u64)
  let w ← curWordM
  let d := setThick first w start d
  skipM (c.raw.nv3dt * c.raw.nelt % u64)
  orStopM d do
  let elemEnd ← curWordM
  if sub64 elemEnd elemStart < (toU64 c.raw.nel8 * c.raw.nv3d + c.raw.nelt * c.raw.nv3dt +
    c.raw.nel2 * c.raw.nv1d + c.raw.nel4 * c.raw.nv2d) % u64 then failM
  else do
  skipIfM (deletionWords c > 0) (deletionWords c)
  orStopM d do
  growM d start

/-- The node data (`/repo/src/d3plot_state.c:186-247`). The temperatures are not modelled because
IT is 0. -/
def readNodesM (c : Cda) (first : Bool) (start : Nat) (d : Ptrs) : MM (Ptrs × D3.Found) := do
  let nodeStart ← curWordM
  let d := setCoords c first nodeStart start d
  skipIfM (c.raw.iu ≠ 0) (3 * c.raw.numnp % u64)
  let w ← curWordM
  let d := setVel c first w start d
  skipIfM (c.raw.iv ≠ 0) (3 * c.raw.numnp % u64)
  let w ← curWordM
  let d := setAcc c first w start d
  skipIfM (c.raw.ia ≠ 0) (3 * c.raw.numnp % u64)
  orStopM d do
  let nodeEnd ← curWordM
  if sub64 nodeEnd nodeStart ≠ c.ndim * (c.raw.iu + c.raw.iv + c.raw.ia) * c.raw.numnp % u64 then failM
  else readElementsM c first start d

/-- Models `_d3plot_read_state_data` (`/repo/src/d3plot_state.c:42-333`). `first` is
`num_states == 0`. -/
def readStateM (c : Cda) (numrbs : Nat) (first : Bool) (d : Ptrs) : MM (Ptrs × D3.Found) := do
  let start ← curWordM
  let ws ← wordSizeM
  let time ← rdBytesM 1
  if ← hasErrM then failM
  else if time = eofBytes ws then pure (d, .eof)
  else do
  let globalStart ← curWordM
  skipAllM (globals c numrbs)
  orStopM d do
  skipM (sub64 (sub64 c.raw.nglbv 6)
    (7 * (c.raw.nummat8 + c.raw.nummat2 + c.raw.nummat4 + c.raw.nummatt + numrbs)))
  orStopM d do
  let globalEnd ← curWordM
  if sub64 globalEnd globalStart ≠ c.raw.nglbv then failM
  else readNodesM c first start d

/-- Models the loop over the states (`/repo/src/d3plot.c:449-462`); `fuel` bounds the number of
iterations. -/
def readStatesM (c : Cda) (numrbs : Nat) : (fuel : Nat) → Ptrs → List Nat → MM (Ptrs × List Nat)
  | 0, _, _ => failM
  | fuel + 1, d, states => do
    let r ← readStateM c numrbs states.isEmpty d
    match r with
    | (d, .finish) => pure (d, states)
    | (d, .state start) => readStatesM c numrbs fuel d (states ++ [start])
    | (d, .eof) =>
      if ← toNextFileM then readStatesM c numrbs fuel d states
      else pure (d, states)

/-- Everything behind the control data (`/repo/src/d3plot.c:395-466`). -/
def readBodyM (fuel : Nat) (c : Cda) : MM (Nat × Ptrs × List Nat) := do
  let d ← readGeometryM c {}
  let (d, numrbs) ← readUserIdsM c d
  readExtraConnectivityM c
  readAdaptedM c
  let ws ← wordSizeM
  let eof ← rdBytesM 1
  if eof ≠ eofBytes ws then failCloseM else do
  let d ← readHeaderM d fuel
  if c.raw.ncfdv1 = 67108864 then failCloseM else do
  if !(← toNextFileM) then failCloseM else do
  let (d, states) ← readStatesM c numrbs fuel d []
  pure (numrbs, d, states)

/-- Everything behind the file type (`/repo/src/d3plot.c:98-466`). -/
def readPlotM (fuel : Nat) : MM (Cda × Nat × Ptrs × List Nat) := do
  skipM 1
  skipM 1
  skipM 1
  let raw ← readRawM
  let ext ← readExtraM raw.extra
  if ← hasErrM then failCloseM else do
  match derive raw ext with
  | .ub => undefM
  | .abort => undefM
  | .err => failCloseM
  | .ok c =>
    if !supported c then failCloseM else do
    let (numrbs, d, states) ← readBodyM fuel c
    pure (c, numrbs, d, states)

/-- Everything behind the first seek (`/repo/src/d3plot.c:78-466`). -/
def openHeadM (fuel : Nat) : MM (Cda × Nat × Ptrs × List Nat) := do
  skipM 10
  skipM 1
  let fileType ← rdM
  let fileType := if fileType > 1000 then fileType - 1000 else fileType
  if fileType ≠ 1 then failCloseM
  else readPlotM fuel

/-- `d3plot_open` for a family with these contents; `none` means that `error_string` is set.
Code: `/repo/src/d3plot.c:56-466`. -/
def openPlotM (abs : Bool) (m : Mem) (files : List Bytes) :
    Res (Han × Option (Cda × Nat × Ptrs × List Nat)) := do
  let x ← openBufM abs m files
  if x.err.isSome then .ok (⟨{ x with err := none }, x.err, none⟩, none)
  else do
    let dp := x.mem.alloc
    let r ← seekM { x with mem := dp.1 } 0
    let t ← openHeadM (files.flatten.length + files.length + 1) ⟨⟨r.1, none, some dp.2⟩, r.2⟩
    .ok (t.1.h, t.2)

/-- `d3plot_close`: `data_pointers` keeps its value. Code: `/repo/src/d3plot.c:468-482`. -/
def closePlotM (h : Han) : Res Han := do
  let x ← closeBufM h.x
  let m ← x.mem.freeOpt h.dp
  let m ← m.freeOpt h.perr
  .ok ⟨{ x with mem := m }, none, h.dp⟩

/-! ## Reading -/

/-- An open file: its blocks and handles, and the values of `Plot`. Code: `/repo/src/d3plot.h:33-137`. -/
structure PlotM where
  h : Han
  cda : Cda
  numrbs : Nat
  ptrs : Ptrs
  states : List Nat

/-- The memory. Auxiliary of the model, no code of its own. -/
def PlotM.mem (p : PlotM) : Mem := p.h.x.mem

/-- The same file after memory has been allocated or released. Auxiliary of the model, no code of its own. -/
def PlotM.withMem (p : PlotM) (m : Mem) : PlotM := { p with h := { p.h with x := { p.h.x with mem := m } } }

/-- A call that reads: the file, and the blocks that have been given to the caller together with the values. `none`
means that `error_string` is set. Code: `/repo/src/d3plot.h:128-137`. -/
abbrev OutM (α : Type) := PlotM × Option (List Nat × α)

/-- `ERROR_AND_NO_RETURN_PTR` and no result. Code: `/repo/src/d3plot_error_macros.h:33-37`. -/
def errM {α : Type} (p : PlotM) : Res (PlotM × Option α) := do
  let h ← setPErr p.h
  .ok ({ p with h := h }, none)

/-- `D3PLOT_CLEAR_ERROR_STRING`. Code: `/repo/src/d3plot_error_macros.h:72-74`. -/
def clearM (p : PlotM) : Res PlotM := do
  let h ← clearPErr p.h
  .ok { p with h := h }

/-- The message of the buffer is put into the message of the file (e.g. `/repo/src/d3plot.c:3184-3190`). -/
def errBufM {α : Type} (p : PlotM) : Res (PlotM × Option α) := do
  useArr p.mem p.h.x.err
  errM p

/-- Read `n` words at a position, close the pointer and look for an error of the buffer
(e.g. `/repo/src/d3plot.c:3181-3193`). -/
def readAtM (p : PlotM) (n word : Nat) : Res (PlotM × Option (List Nat)) := do
  useArr p.mem p.h.dp
  let r ← readWordsAtM p.h.x (n % u64) (word % u64)
  let y ← closeM r.1 r.2.1
  if y.err.isSome then errBufM { p with h := { p.h with x := y } }
  else .ok ({ p with h := { p.h with x := y } }, some (toWords y.ws (n % u64) r.2.2))

/-- An array that is only needed for some sizes of a word. Code: `/repo/src/d3plot.c:3269-3271`. -/
def allocIf (c : Bool) (m : Mem) : Mem × Option Nat := if c then (m.alloc.1, some m.alloc.2) else (m, none)

/-- What is done after an array has been read: the temporary one is released, and after an error also the result.
Code: `/repo/src/d3plot.c:3276-3304`. -/
def finishM {α : Type} (res : Nat) (temp : Option Nat) (r : PlotM × Option α) : Res (OutM α) := do
  let m ← r.1.mem.freeOpt temp
  match r.2 with
  | none => do
    let m ← m.free res
    .ok (r.1.withMem m, none)
  | some a => .ok (r.1.withMem m, some ([res], a))

/-- Read `n` words into an array, through a temporary one if `temp` (e.g. `/repo/src/d3plot.c:3268-3304`). -/
def readBlockM (p : PlotM) (temp : Bool) (n word : Nat) : Res (OutM (List Nat)) := do
  let a := p.mem.alloc
  let t := allocIf temp a.1
  let r ← readAtM (p.withMem t.1) n word
  finishM a.2 t.2 r

/-- The numbers are converted into another array, and the first one is released (e.g. `/repo/src/d3plot.c:3161-3174`). -/
def convertM {α : Type} (r : PlotM × Option (List Nat × α)) : Res (OutM α) :=
  match r.2 with
  | none => .ok (r.1, none)
  | some (bs, a) => do
    let m ← r.1.mem.alloc.1.freeAll bs
    .ok (r.1.withMem m, some ([r.1.mem.alloc.2], a))

/-- `d3plot_read_time`. Code: `/repo/src/d3plot.c:1273-1311`. -/
def readTimeM (p : PlotM) (state : Nat) : Res (PlotM × Option (List Nat)) := do
  let p ← clearM p
  match p.states[state]? with
  | none => errM p
  | some s => readAtM p 1 (s + p.ptrs.stTime)

/-- `_d3plot_read_node_data` or `_d3plot_read_node_data_32` if the numbers have the size of a word.
Code: `/repo/src/d3plot.c:3141-3257`. -/
def nodeSameM (p : PlotM) (ptr state : Nat) : Res (OutM (List Nat)) := do
  let p ← clearM p
  if ptr = 0 then errM p
  else
    match p.states[state]? with
    | none => errM p
    | some s => readBlockM p false (p.cda.raw.numnp * 3) (s + ptr)

/-- `_d3plot_read_node_data` and `_d3plot_read_node_data_32`; `same` is whether the numbers have the size of a word.
Code: `/repo/src/d3plot.c:3141-3257`. -/
def readNodeDataM (p : PlotM) (same : Bool) (ptr state : Nat) : Res (OutM (List Nat)) :=
  if same then nodeSameM p ptr state
  else do
    let p ← clearM p
    if ptr = 0 then errM p
    else do
      let r ← nodeSameM p ptr state
      convertM r

/-- The loop over the states (e.g. `/repo/src/d3plot.c:800-817`). -/
def readEachM (n ptr : Nat) : List Nat → PlotM → Res (PlotM × Option (List Nat))
  | [], p => .ok (p, some [])
  | s :: rest, p => do
    let r ← readAtM p n (s + ptr)
    match r.2 with
    | none => .ok (r.1, none)
    | some d => do
      let t ← readEachM n ptr rest r.1
      .ok (t.1, t.2.map (d ++ ·))

/-- The functions that read all states, if the numbers have the size of a word, and `d3plot_read_all_time`.
Code: `/repo/src/d3plot.c:791-823` and d3plot.c:1313-1366. -/
def allSameM (p : PlotM) (n ptr : Nat) : Res (OutM (List Nat)) := do
  let p ← clearM p
  let r ← readEachM n ptr p.states (p.withMem p.mem.alloc.1)
  finishM p.mem.alloc.2 none r

/-- `d3plot_read_all_node_coordinates`, `..._velocity`, `..._acceleration`, and the functions with `_32`.
Code: `/repo/src/d3plot.c:761-1271`. -/
def readAllNodeDataM (p : PlotM) (same : Bool) (ptr : Nat) : Res (OutM (List Nat)) :=
  if same then allSameM p (p.cda.raw.numnp * 3) ptr
  else do
    let r ← allSameM p (p.cda.raw.numnp * 3) ptr
    convertM r

/-- `d3plot_read_all_time`. Code: `/repo/src/d3plot.c:1313-1366`. -/
def readAllTimeM (p : PlotM) : Res (OutM (List Nat)) := allSameM p 1 p.ptrs.stTime

/-- `_d3plot_read_ids`. Code: `/repo/src/d3plot.c:3259-3306`. -/
def readIdsM (p : PlotM) (ptr count : Nat) : Res (OutM (List Nat)) := do
  let p ← clearM p
  if count = 0 then .ok (p, some ([], []))
  else readBlockM p (p.h.x.ws == 4) count ptr

/-- `d3plot_read_title`. Code: `/repo/src/d3plot.c:2888-2911`. -/
def readTitleM (p : PlotM) : Res (OutM (List Nat)) := do
  let p ← clearM p
  readBlockM p false 10 0

/-- `d3plot_read_epoch_run_time`. Code: `/repo/src/d3plot.c:2933-2953`. -/
def readRunTimeM (p : PlotM) : Res (PlotM × Option (List Nat)) := do
  let p ← clearM p
  readAtM p 1 10

/-- The table of the elements of one kind, with `k` words for each (e.g. `/repo/src/d3plot.c:2568-2650`). -/
def readElementsTableM {α : Type} (p : PlotM) (none? : Bool) (n word : Nat) (f : List Nat → List α) : Res (OutM (List α)) := do
  let p ← clearM p
  if none? then .ok (p, some ([], []))
  else do
    let r ← readBlockM p (p.h.x.ws == 4) n word
    .ok (r.1, r.2.map (fun y => (y.1, f y.2)))

/-- `d3plot_read_solid_elements`. Code: `/repo/src/d3plot.c:2568-2650`. -/
def readSolidElementsM (p : PlotM) : Res (OutM (List Con)) :=
  readElementsTableM p (decide (p.cda.raw.nel8 ≤ 0)) (9 * toU64 p.cda.raw.nel8) p.ptrs.el8Connect
    (cons p.h.x.ws 8 (toU64 p.cda.raw.nel8))

/-- `d3plot_read_thick_shell_elements`. Code: `/repo/src/d3plot.c:2652-2737`. -/
def readThickElementsM (p : PlotM) : Res (OutM (List Con)) :=
  readElementsTableM p (p.cda.raw.nelt == 0) (9 * p.cda.raw.nelt) p.ptrs.eltConnect (cons p.h.x.ws 8 p.cda.raw.nelt)

/-- `d3plot_read_beam_elements`. Code: `/repo/src/d3plot.c:2738-2811`. -/
def readBeamElementsM (p : PlotM) : Res (OutM (List Con)) :=
  readElementsTableM p (p.cda.raw.nel2 == 0) (6 * p.cda.raw.nel2) p.ptrs.el2Connect (beamCons p.h.x.ws p.cda.raw.nel2)

/-- `d3plot_read_shell_elements`. Code: `/repo/src/d3plot.c:2813-2886`. -/
def readShellElementsM (p : PlotM) : Res (OutM (List Con)) :=
  readElementsTableM p (p.cda.raw.nel4 == 0) (5 * p.cda.raw.nel4) p.ptrs.el4Connect (cons p.h.x.ws 4 p.cda.raw.nel4)

/-! ### Part ids and titles -/

/-- The turns of the loop of `d3plot_read_part_ids` behind the first one. Code: `/repo/src/d3plot.c:602-617`. -/
def partIdLoopM : Nat → BufM → PtrM → List Nat → Res (BufM × PtrM × List Nat)
  | 0, x, q, acc => .ok (x, q, acc)
  | n + 1, x, q, acc => do
    let r ← readWordsM x q 1
    let t ← skipBytesM r.1 r.2.1 72
    partIdLoopM n t.1 t.2 (acc ++ [D3.leNat r.2.2])

/-- The ids of the parts in the header. Code: `/repo/src/d3plot.c:593-620`. -/
def headerPartIdsM (p : PlotM) (n : Nat) : Res (OutM (List Nat)) := do
  useArr p.mem p.h.dp
  let r ← readWordsAtM { p.h.x with mem := p.mem.alloc.1 } 1 p.ptrs.partTitles
  let t ← skipBytesM r.1 r.2.1 72
  let l ← partIdLoopM n t.1 t.2 [D3.leNat r.2.2]
  let y ← closeM l.1 l.2.1
  .ok ({ p with h := { p.h with x := y } }, some ([p.mem.alloc.2], l.2.2))

/-- `d3plot_read_part_ids`. Code: `/repo/src/d3plot.c:579-624`. -/
def readPartIdsM (p : PlotM) : Res (OutM (List Nat)) := do
  let p ← clearM p
  if p.ptrs.partIds = 0 then
    if p.ptrs.partTitles = 0 then errM p
    else
      match p.cda.raw.nmmat with
      | 0 => .ub
      | n + 1 => headerPartIdsM p n
  else readIdsM p p.ptrs.partIds p.cda.raw.nmmat

/-- After a title has been read: on an error everything is released. `bs` are the titles so far, `res` is the array.
Code: `/repo/src/d3plot.c:651-668`. -/
def titleDoneM (p : PlotM) (q : PtrM) (res : Nat) (bs : List Nat) (bytes : Bytes) (acc : List Bytes) :
    Res (PlotM × PtrM × Option (List Nat × List Bytes)) :=
  if p.h.x.err.isSome then do
    let y ← closeM p.h.x q
    useArr y.mem y.err
    let h ← setPErr { p.h with x := y }
    let m ← h.x.mem.freeAll bs
    let m ← m.free res
    .ok ({ p with h := { h with x := { h.x with mem := m } } }, none, none)
  else .ok (p, q, some (bs, acc ++ [bytes]))

/-- The turns of the loop of `d3plot_read_part_titles` behind the first one. Code: `/repo/src/d3plot.c:636-671`. -/
def titleLoopM (res : Nat) : Nat → PlotM → PtrM → List Nat → List Bytes →
    Res (PlotM × PtrM × Option (List Nat × List Bytes))
  | 0, p, q, bs, acc => .ok (p, q, some (bs, acc))
  | n + 1, p, q, bs, acc => do
    let s ← skipWordsM { p.h.x with mem := p.mem.alloc.1 } q 1
    let r ← readWordsM s.1 s.2 (titleWords s.1.ws)
    let d ← titleDoneM { p with h := { p.h with x := r.1 } } r.2.1 res (bs ++ [p.mem.alloc.2]) r.2.2 acc
    match d.2.2 with
    | none => .ok d
    | some t => titleLoopM res n d.1 d.2.1 t.1 t.2

/-- The end of `d3plot_read_part_titles`. Code: `/repo/src/d3plot.c:673-676`. -/
def titlesEndM (res : Nat) (d : PlotM × PtrM × Option (List Nat × List Bytes)) : Res (OutM (List Bytes)) :=
  match d.2.2 with
  | none => .ok (d.1, none)
  | some t => do
    let y ← closeM d.1.h.x d.2.1
    .ok ({ d.1 with h := { d.1.h with x := y } }, some (res :: t.1, t.2))

/-- The rest of the titles. Code: `/repo/src/d3plot.c:636-676`. -/
def titlesRestM (res n : Nat) (d : PlotM × PtrM × Option (List Nat × List Bytes)) : Res (OutM (List Bytes)) :=
  match d.2.2 with
  | none => .ok (d.1, none)
  | some t => do
    let l ← titleLoopM res n d.1 d.2.1 t.1 t.2
    titlesEndM res l

/-- `d3plot_read_part_titles`. Code: `/repo/src/d3plot.c:625-676`. -/
def readPartTitlesM (p : PlotM) : Res (OutM (List Bytes)) := do
  let p ← clearM p
  match p.cda.raw.nmmat with
  | 0 => .ub
  | n + 1 => do
    let a := p.mem.alloc
    let b := a.1.alloc
    useArr p.mem p.h.dp
    let r ← readWordsAtM { p.h.x with mem := b.1 } (titleWords p.h.x.ws) (p.ptrs.partTitles + 1)
    let d ← titleDoneM { p with h := { p.h with x := r.1 } } r.2.1 a.2 [b.2] r.2.2 []
    titlesRestM a.2 n d

/-! ### Parts -/

/-- The two arrays of a part for one kind of elements. Code: `/repo/src/d3_defines.h:76-91`. -/
structure KindM where
  ids : Option Nat := none
  indices : Option Nat := none
  els : List (Nat × Nat) := []

/-- The loop of `ADD_ELEMENTS_TO_PART`. Code: `/repo/src/d3plot.c:2970-2984`. -/
def selectPartM (part : Nat) : (i : Nat) → List Con → List Nat → Mem → KindM → Res (Mem × KindM)
  | _, [], _, m, k => .ok (m, k)
  | i, e :: es, ids, m, k =>
    if e.material = part then do
      let a ← m.realloc k.ids
      let b ← a.1.realloc k.indices
      match ids.head? with
      | none => .ub
      | some id => selectPartM part (i + 1) es ids.tail b.1 ⟨some a.2, some b.2, k.els ++ [(i, id)]⟩
    else selectPartM part (i + 1) es ids.tail m k

/-- The part of `ADD_ELEMENTS_TO_PART` behind the elements. Code: `/repo/src/d3plot.c:2965-2989`. -/
def addFoundM (part : Nat) (bi ids : List Nat) (r : PlotM × Option (List Nat × List Con)) : Res (PlotM × KindM) :=
  match r.2 with
  | none => do
    let p ← clearM r.1
    let m ← p.mem.freeAll bi
    .ok (p.withMem m, {})
  | some (be, els) => do
    let k ← selectPartM part 0 els ids r.1.mem {}
    let m ← k.1.freeAll bi
    let m ← m.freeAll be
    .ok (r.1.withMem m, k.2)

/-- `ADD_ELEMENTS_TO_PART`. Code: `/repo/src/d3plot.c:2957-2990`. -/
def addElementsM (part : Nat) (readI : PlotM → Res (OutM (List Nat))) (readE : PlotM → Res (OutM (List Con))) (p : PlotM) :
    Res (PlotM × KindM) := do
  let r ← readI p
  match r.2 with
  | none => do
    let p ← clearM r.1
    .ok (p, {})
  | some (bi, ids) =>
    if ids = [] then .ok (r.1, {})
    else do
      let e ← readE r.1
      addFoundM part bi ids e

/-- `d3plot_part` with its blocks. Code: `/repo/src/d3_defines.h:76-91`. -/
structure PartM where
  solids : KindM
  thick : KindM
  beams : KindM
  shells : KindM

/-- The blocks of a part. Code: `/repo/src/d3plot.c:3356-3384` (what `d3plot_free_part` releases). -/
def KindM.blks (k : KindM) : List Nat := k.ids.toList ++ k.indices.toList

/-- `d3plot_read_part`. Code: `/repo/src/d3plot.c:2990-3033`. -/
def readPartM (p : PlotM) (part : Nat) : Res (OutM PartM) := do
  let p ← clearM p
  let a ← addElementsM part (fun p => readIdsM p p.ptrs.el8Ids (toU64 p.cda.raw.nel8)) readSolidElementsM p
  let b ← addElementsM part (fun p => readIdsM p p.ptrs.eltIds p.cda.raw.nelt) readThickElementsM a.1
  let c ← addElementsM part (fun p => readIdsM p p.ptrs.el2Ids p.cda.raw.nel2) readBeamElementsM b.1
  let d ← addElementsM part (fun p => readIdsM p p.ptrs.el4Ids p.cda.raw.nel4) readShellElementsM c.1
  if a.2.els = [] ∧ b.2.els = [] ∧ c.2.els = [] ∧ d.2.els = [] then errM d.1
  else .ok (d.1, some (a.2.blks ++ b.2.blks ++ c.2.blks ++ d.2.blks, ⟨a.2, b.2, c.2, d.2⟩))

/-- The part of `d3plot_read_part_by_id` behind the ids. Code: `/repo/src/d3plot.c:3049-3071`. -/
def byIdDoneM (id : Nat) (p : PlotM) (bs ids : List Nat) : Res (OutM PartM) :=
  if ids = [] then errM p
  else do
    let i ← indexForId id ids
    let m ← p.mem.freeAll bs
    match i with
    | none => errM (p.withMem m)
    | some i => readPartM (p.withMem m) i

/-- `d3plot_read_part_by_id` if the part ids are read from the file. Code: `/repo/src/d3plot.c:3035-3071`. -/
def readPartByIdM (p : PlotM) (id : Nat) : Res (OutM PartM) := do
  let p ← clearM p
  let r ← readPartIdsM p
  match r.2 with
  | none => .ok (r.1, none)
  | some x => byIdDoneM id r.1 x.1 x.2

end Dyna.D3Mem
