import Verif.Model.Basic

/-! # Where a plot goes, and its script

`dygraphs_plot` (plots.py 356-1160): which options are refused, which files are written, what is returned; the names written in the script; the colours of the labels.  The content
of the page is a parameter: `Plots` is about the data in it. -/

namespace Timeseria

/-- the options on the output (plots.py 356-360): `saveTo` is `none` also for an empty text (`if save_to:`) -/
structure PlotOpts where
  html : Bool := false
  image : Bool := false
  saveTo : Option String := none
  deriving DecidableEq

/-- what the plot finds around it: whether `pyppeteer` was imported (1003), whether a file can be opened for writing (995) or for appending (1055), whether a file can be
removed (1061), whether a directory is there or can be made (1049-1053), and what the browser gives: an image, or a failure (1072-1077) -/
structure PlotEnv where
  support : Bool := true
  canWrite : String → Bool := fun _ => true
  canAppend : String → Bool := fun _ => true
  canRemove : String → Bool := fun _ => true
  dirOk : String → Bool := fun _ => true
  render : Option String := some "image"

/-- what the call gives back -/
inductive PlotRet where
  | nothing
  | code (page : String)
  | image (file : String)
  | displayed (page : String)
  deriving DecidableEq

/-- files by name -/
abbrev PlotFiles := List (String × String)

/-- the content of a file -/
def PlotFiles.read (fs : PlotFiles) (f : String) : Option String := List.lookup f fs

def PlotFiles.remove (fs : PlotFiles) (f : String) : PlotFiles := fs.filter (fun p => p.1 ≠ f)

def PlotFiles.write (fs : PlotFiles) (f c : String) : PlotFiles := (f, c) :: fs.remove f

/-- `'/'.join(png_dest.split('/')[0:-1])` (1047): what is before the last slash -/
def dirOf (f : String) : String := String.ofList ((f.toList.reverse.dropWhile (fun c => c ≠ '/')).drop 1).reverse

/-- `png_dest_path.strip()` is not empty (1048); blank characters other than the space are not modelled -/
def hasDir (f : String) : Bool := (dirOf f).toList.any (fun c => c ≠ ' ')

/-- checking that the image can be written (1046-1063): `open(png_dest, 'a')` makes the file if it is not there, and the `finally` block removes it in any case -/
def probe (env : PlotEnv) (fs : PlotFiles) (f : String) : PlotFiles × Except PyErr Unit :=
  if !hasDir f then (fs, .ok ())
  else if !env.dirOk (dirOf f) then (fs, .error .ioError)
  else
    let left := if env.canRemove f then fs.remove f else fs
    if env.canAppend f then (if env.canRemove f then left else if (fs.read f).isSome then fs else fs.write f "", .ok ())
    else (left, .error .ioError)

/-- rendering the image (1001-1080) -/
def renderImage (env : PlotEnv) (fs : PlotFiles) (f : String) : PlotFiles × Except PyErr Unit :=
  if !env.support then (fs, .error .valueError)
  else match probe env fs f with
    | (fs', .error e) => (fs', .error e)
    | (fs', .ok _) => match env.render with
      | none => (fs', .error .ioError)
      | some img => (fs'.write f img, .ok ())

/-- where the page is written, and the image (952-969): `tmp` are the two names made from a new identifier (946, 956, 965-966) -/
def plotDest (o : PlotOpts) (tmp : String × String) : Option String × Option String :=
  match o.saveTo, o.image with
  | some f, true => (some tmp.1, some f)
  | some f, false => (some f, none)
  | none, true => (some tmp.1, some tmp.2)
  | none, false => (none, none)

/-- `dygraphs_plot` (356-1160): `n` is the number of the items, `page` the content, or the exception raised while it is made (413-935) -/
def plotOut (env : PlotEnv) (tmp : String × String) (o : PlotOpts) (n : ℕ) (page : Except PyErr String) (fs : PlotFiles) : PlotFiles × Except PyErr PlotRet :=
  if o.html && o.image then (fs, .error .valueError)
  else if o.html && o.saveTo.isSome then (fs, .error .valueError)
  else if n = 0 then (fs, .error .exception)
  else match page with
    | .error e => (fs, .error e)
    | .ok p =>
      if !(o.image || o.saveTo.isSome || o.html) then (fs, .ok (.displayed p))
      else
        match (plotDest o tmp).1 with
        | none => (fs, .ok (.code p))      -- 994-998: the name of the file is not set, the error is caught
        | some h =>
          if !env.canWrite h then (fs, .error .ioError)
          else
            let fs1 := fs.write h p
            match (plotDest o tmp).2 with
            | none => (fs1, .ok .nothing)
            | some f => match renderImage env fs1 f with
              | (fs2, .error e) => (fs2, .error e)
              | (fs2, .ok _) => (fs2, .ok (if o.saveTo.isSome then .nothing else .image f))

/-! ## Names in the script -/

/-- the name of an index (834) or of a label (861) in the options of the series: `"'" + name + "'"` -/
def scriptName (name : List Char) : List Char := '\'' :: (name ++ ['\''])

/-- how Javascript reads the text of a literal after its opening quote: up to the closing one; a backslash takes the next character (`\n` and the others are not interpreted here:
the character is kept as it is); a line cannot end inside of it -/
def readLiteral : List Char → Option (List Char × List Char)
  | [] => none
  | c :: r =>
    if c = '\'' then some ([], r)
    else if c = '\n' ∨ c = '\r' then none
    else if c = '\\' then match r with
      | [] => none
      | d :: r' => match readLiteral r' with
        | none => none
        | some (s, rest) => some (d :: s, rest)
    else match readLiteral r with
      | none => none
      | some (s, rest) => some (c :: s, rest)

/-- reading a literal in single quotes, and what is left after it -/
def readName : List Char → Option (List Char × List Char)
  | '\'' :: r => readLiteral r
  | _ => none

/-! ## Colours of the labels (871-891) -/

/-- plots.py 72-83 -/
def tab10reord : List (ℕ × ℕ × ℕ) := [(148, 103, 189), (44, 160, 44), (140, 86, 75), (227, 119, 194), (127, 127, 127), (188, 189, 34), (23, 190, 207), (214, 39, 40), (255, 127, 14), (31, 119, 180)]

/-- plots.py 85-97 -/
def extraColours : List (ℕ × ℕ × ℕ) := [(77, 175, 74), (166, 86, 40), (0, 0, 0), (255, 255, 51), (247, 129, 191), (153, 153, 153), (255, 127, 0), (55, 126, 184), (228, 26, 28)]

/-- the colour of the `i`-th label after the first (878-889) -/
def nextColour (i : ℕ) : ℕ × ℕ × ℕ :=
  match tab10reord[i]? with
  | some c => c
  | none => match extraColours[i - tab10reord.length]? with
    | some c => c
    | none => (0, 0, 0)

/-- a colour of the script: one of the tables, or the text given by the user -/
inductive PlotColour where
  | rgb (c : ℕ × ℕ × ℕ)
  | custom (s : String)
  deriving DecidableEq

/-- the list of colours for `n` labels (871-891); `colour` is `none` also for an empty text (`if color:`) -/
def plotColours (colour : Option String) (n : ℕ) : List PlotColour :=
  if n ≤ 1 then match colour with
    | some c => [.custom c]
    | none => [.rgb (0, 128, 128)]
  else .rgb (0, 128, 128) :: (List.range (n - 1)).map (fun i => .rgb (nextColour i))

end Timeseria
