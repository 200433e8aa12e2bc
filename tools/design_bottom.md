## Not modelled

* `mmrazor/models/architectures` backbones, heads, necks, connectors and ops
  (numeric forward passes), `mmrazor/models/losses` except where listed,
  `mmrazor/datasets` transforms, `mmrazor/structures/quantization` backend
  configurations, TensorRT/OpenVINO exporters, `mmrazor/visualization`.
* `mmrazor/models/task_modules/tracer` beyond the backward tracer: the fx
  tracer's Python interception and torch fx itself.
* Registries, `Config` handling, logging, and multi-process communication except
  where a property is about it (C16, C41, C47).
* Command-line tools and configuration files.
