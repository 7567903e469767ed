import Verif.Model.App

/-!
# Model of the notifications of the web app

The handlers of `app.py` once more, now with what they tell the user: the notifications of running
computations, which a handler changes when it goes on, and the messages of `ui.notify`. The state of
the page itself is that of `Verif.Model.App`. The text of exceptions is left out of messages, as are the
timeouts after which stopped notifications disappear.
-/

set_option autoImplicit false

namespace Verif

variable {K G : Type}

/-- A `ui.notification`. While the spinner turns it stays on the page. -/
structure Note where
  message : String
  type : String
  spinner : Bool
  deriving DecidableEq

/-- The handler of a waiting task: the index of its notification; and, if the task is a drawing that
`async_run_mapper` waits for, the index of the notification of `async_run_mapper`. -/
structure Handler where
  note : ℕ
  caller : Option ℕ := none
  deriving DecidableEq

/-- The page with its notifications: `handlers` are those of `page.tasks`, in order, and `messages` are
the texts and types given to `ui.notify`. -/
structure NotePage (K G : Type) where
  page : Page K G := {}
  handlers : List Handler := []
  notes : List Note := []
  messages : List (String × String) := []
  deriving DecidableEq

namespace NotePage

/-- app.py:889-900 `notification_running_start`. The new notification is the last one. -/
def start (p : NotePage K G) (message : String) : NotePage K G :=
  { p with notes := p.notes ++ [⟨message, "ongoing", true⟩] }

/-- app.py:902-916 `notification_running_stop`. -/
def stop (p : NotePage K G) (i : ℕ) (message type : String) : NotePage K G :=
  { p with notes := p.notes.set i ⟨message, type, false⟩ }

/-- `ui.notify(message, type)`. -/
def notify (p : NotePage K G) (message type : String) : NotePage K G :=
  { p with messages := p.messages ++ [(message, type)] }

/-- An exception in `async_draw_mapper`: `async_run_mapper`, if it is what waits for the drawing,
reports it (app.py:959-962); otherwise NiceGUI logs it. -/
def raised (p : NotePage K G) (caller : Option ℕ) : NotePage K G :=
  match caller with
  | some j => p.stop j "Run Mapper failed" "error"
  | none => p

/-- app.py:823-841 `upload_file`. An exception of `read_csv` is logged by NiceGUI. -/
def upload [Field K] (file : Option (Py (Frame K))) (p : NotePage K G) : NotePage K G :=
  match file with
  | none => p.notify "File upload failed: no file provided." "warning"
  | some (.error _) => p
  | some (.ok df) =>
    ({ p with page := { p.page with storage :=
        { p.page.storage with df := some (fixData df), labels := some .none } } }).notify
      "File upload completed." "info"

/-- app.py:879-887: the end of `load_data`. -/
def columns (p : NotePage K G) : NotePage K G :=
  let df := p.page.storage.df.getD .none
  if df.empty then
    p.notify "Load data failed: no data found, please upload a file first." "warning"
  else
    ({ p with page := { p.page with widgets := { p.page.widgets with
        excludedOptions := df.columns.map Column.name, excludedColumns := some [] } } }).notify
      "Load data completed." "positive"

/-- app.py:843-887 `load_data`. -/
def load [Field K] (O : Outside K G) (p : NotePage K G) : NotePage K G :=
  if p.page.widgets.loadType = "Example" then
    match exampleData O p.page.widgets.loadExample with
    | none => p.notify "Load data failed: unknown example dataset selected." "warning"
    | some (df, labels) => columns { p with page := { p.page with storage :=
        { p.page.storage with df := some (fixData df), labels := some (fixData labels) } } }
  else if p.page.widgets.loadType = "CSV" then
    if (p.page.storage.df.getD .none).empty then
      p.notify "Load data failed: no data found, please upload a file first." "warning"
    else columns p
  else p.notify "Load data failed: unknown load type selected." "warning"

/-- app.py:970-995: `async_draw_mapper` up to its `await`. -/
def draw (p : NotePage K G) (caller : Option ℕ) : NotePage K G :=
  let i := p.notes.length
  let p := p.start "Drawing Mapper..."
  match getMapperConfig p.page.widgets with
  | .error _ => p.raised caller
  | .ok cfg =>
    let df := p.page.storage.df.getD .none
    match p.page.storage.graph with
    | none => p.stop i "Draw Mapper failed: no Mapper graph found, please run Mapper first." "warning"
    | some g =>
      if df.empty then
        p.stop i "Draw Mapper failed: no Mapper graph found, please run Mapper first." "warning"
      else
        { p with
          page := { p.page with tasks := p.page.tasks ++ [.draw ⟨df, p.page.storage.dfY.getD .none,
            p.page.storage.labels.getD .none, g, cfg⟩] }
          handlers := p.handlers ++ [⟨i, caller⟩] }

/-- app.py:930-940: `async_run_mapper` up to its `await`. -/
def run (p : NotePage K G) : NotePage K G :=
  let i := p.notes.length
  let p := p.start "Running Mapper..."
  let df := p.page.storage.df.getD .none
  if df.empty then
    p.stop i "Run Mapper failed: no data found, please load data first." "warning"
  else
    match getMapperConfig p.page.widgets with
    | .error _ => p
    | .ok cfg =>
      { p with page := { p.page with tasks := p.page.tasks ++ [.run df cfg] },
               handlers := p.handlers ++ [⟨i, none⟩] }

/-- app.py:940-962: `async_run_mapper` after its `await`. -/
def ran (O : Outside K G) (h : Handler) (df : Frame K) (cfg : MapperConfig) (p : NotePage K G) :
    NotePage K G :=
  match runMapper O.libs (some df) cfg with
  | .error _ => p.stop h.note "Run Mapper failed" "error"
  | .ok none => p.stop h.note "Run Mapper failed: something went wrong." "error"
  | .ok (some (g, dfY)) =>
    let p := { p with page := { p.page with storage :=
      { p.page.storage with graph := some g, dfY := some dfY } } }
    (p.stop h.note "Run Mapper completed." "positive").draw (some h.note)

/-- app.py:996-1017: `async_draw_mapper` after its `await`. `create_mapper_figure` returns a figure or
raises; it never returns `None`. -/
def drawn (O : Outside K G) (h : Handler) (d : Drawing K G) (p : NotePage K G) : NotePage K G :=
  if O.draws d then
    ({ p with page := { p.page with shown := some d } }).stop h.note "Draw Mapper completed." "positive"
  else p.raised h.caller

/-- One event. -/
def next [Field K] (O : Outside K G) (p : NotePage K G) : Event K → NotePage K G
  | .upload file => p.upload file
  | .load => p.load O
  | .change w => { p with page := { p.page with widgets := w } }
  | .clickRun => p.run
  | .clickRedraw => p.draw none
  | .finish i =>
    match p.page.tasks[i]?, p.handlers[i]? with
    | some t, some h =>
      let p := { p with page := { p.page with tasks := p.page.tasks.eraseIdx i },
                        handlers := p.handlers.eraseIdx i }
      match t with
      | .run df cfg => p.ran O h df cfg
      | .draw d => p.drawn O h d
    | _, _ => p

/-- A history of events. -/
def after [Field K] (O : Outside K G) (p : NotePage K G) (es : List (Event K)) : NotePage K G :=
  es.foldl (next O) p

end NotePage

end Verif
