lake-manifest.json
.lake/
__pycache__/
